import Verif.Lemmas.NeonAr30Values
import Verif.Props.X86Ar30

/-!
Property theorems about packed 10-bit images on aarch64 with NEON: C193 – C203.
-/

namespace PicScale

open Spec Finset

/-- What every accepted call writes; nothing is assumed about the sums. -/
theorem resize30Neon_fun (rdm : Bool) (s : Workload) (t : Rgb30) (o : Ar30Order) {W : ℕ} {L : Lib}
    {r : ResamplingFunction} {src dst : Image ℕ} (h : Call30 W r src dst) (hb : ∀ v ∈ src.buffer, v < 256) :
    ∃ qv qh out, IsTable L r src.height dst.height qv ∧ IsTable L r src.width dst.width qh ∧
      ValidTable qv src.height dst.height ∧ ValidTable qh src.width dst.width ∧ WeightsI16 qv ∧ WeightsI16 qh ∧
      resize30Neon rdm s W t o L r src dst = some (.ok (), out) ∧ out.length = dst.buffer.length ∧
      (∀ y x c, y < dst.height → x < dst.width → c < 3 → pix30 (fmtLE t o) out dst.stride y x c =
        separableAt src.width src.height dst.width dst.height
          (fun i => (qv.bound i).start)
          (fun y x p => vComp30 (useRdm30 rdm s) src.width x (fun k => qv.weight y k) p (qv.bound y).size)
          (fun i => (qh.bound i).start)
          (fun y x p => hComp30 (useRdm30 rdm s) dst.height y (fun k => qh.weight x k) p (qh.bound x).size)
          (fun y x => pix30 (fmtLE t o) src.buffer src.stride y x c) y x) ∧
      (∀ y x, y < dst.height → x < dst.width → pix30 (fmtLE t o) out dst.stride y x 3 = 3) ∧
      (∀ y p, y < dst.height → dst.width * 4 ≤ p → p < dst.stride →
        out[y * dst.stride + p]? = dst.buffer[y * dst.stride + p]?) := by
  obtain ⟨c0, _, _, cs, cd⟩ := check30_ok.1 h.checked
  obtain ⟨vf, ev, Tv, Sv⟩ := table_exists L r (out := dst.height) c0.2.1 h.small.2 (fun ha => (h.area ha).2)
  obtain ⟨hf, eh, Th, Sh⟩ := table_exists L r (out := dst.width) c0.1 h.small.1 (fun ha => (h.area ha).1)
  have Wv := weightsI16_of (out := dst.height) c0.2.1 h.small.2 (fun ha => (h.area ha).2) ev
  have Wh := weightsI16_of (out := dst.width) c0.1 h.small.1 (fun ha => (h.area ha).1) eh
  have hst := h.strides
  refine ⟨numericalApproximation F32.rnd vf, numericalApproximation F32.rnd hf, ?_⟩
  unfold resize30Neon
  rw [h.checked]
  simp only
  rw [if_neg (by have := h.sizes; tauto), if_neg h.filter]
  by_cases hw : src.width = dst.width
  · have hh : src.height ≠ dst.height := by have := h.sizes; tauto
    rw [if_pos ⟨hh, hw⟩]
    obtain ⟨out, o1, o2, o3, o4, _, o5⟩ := vertical30Neon_fun rdm s t o (src := src.buffer) (dst := dst.buffer) (ss := src.stride)
      (ds := src.stride) (width := src.width) c0.1
      (by rw [cs.1, Nat.mul_comm]) (by rw [cd.1, Nat.mul_comm, hst hw]) cs.2 cs.2 Tv Sv hb
    refine ⟨out, ⟨vf, ev, rfl⟩, ⟨hf, eh, rfl⟩, Sv.q_valid Tv, Sh.q_valid Th, Wv, Wh, ?_, o2, ?_, ?_, ?_⟩
    · simp only [ev, o1, Option.bind_eq_bind, Option.bind_some]
    · intro y x c hy hx hc
      rw [← hst hw, o3 y x c hy (by omega) hc]
      simp only [separableAt, if_pos hw, if_neg hh]
      rfl
    · intro y x hy hx
      rw [← hst hw]; exact o4 y x hy (by omega)
    · intro y p hy hp hps
      rw [← hst hw] at hps ⊢; exact o5 y p hy (by omega) hps
  · rw [if_neg (by tauto)]
    by_cases hh : src.height = dst.height
    · rw [if_neg (by omega)]
      obtain ⟨out, o1, o2, o3, o4, o5⟩ := horizontal30Neon_fun rdm s t o (src := src.buffer) (dst := dst.buffer) (ss := src.stride)
        (ds := dst.stride) (H := dst.height) c0.1 c0.2.2.1
        (by rw [cs.1, Nat.mul_comm, hh]) (by rw [cd.1, Nat.mul_comm]) cs.2 cd.2 Th Sh hb
      refine ⟨out, ⟨vf, ev, rfl⟩, ⟨hf, eh, rfl⟩, Sv.q_valid Tv, Sh.q_valid Th, Wv, Wh, ?_, o2, ?_, o4, o5⟩
      · simp only [eh, o1, Option.bind_eq_bind, Option.bind_some]
      · intro y x c hy hx hc
        rw [o3 y x c hy hx hc]
        simp only [separableAt, if_neg hw, if_pos hh]
        rfl
    · rw [if_pos hh, if_neg (by have := h.fits; omega)]
      obtain ⟨m, t1, t2, t3, _, t4, _⟩ := vertical30Neon_fun rdm s t o (src := src.buffer)
        (dst := List.replicate (src.width * dst.height * 4) 0) (ss := src.stride)
        (ds := src.width * 4) (width := src.width) c0.1
        (by rw [cs.1, Nat.mul_comm]) (by rw [List.length_replicate]; ring) cs.2 (le_refl _) Tv Sv hb
      rw [List.length_replicate] at t2
      have tb : ∀ v ∈ m, v < 256 := by
        intro v hv
        obtain ⟨i, hi, rfl⟩ := List.getElem_of_mem hv
        have hpos : 0 < src.width * 4 := by omega
        have h1 := t4 (i / (src.width * 4)) (i % (src.width * 4))
          (by rw [Nat.div_lt_iff_lt_mul hpos, t2] at *; calc i < src.width * dst.height * 4 := by omega
                _ = dst.height * (src.width * 4) := by ring)
          (Nat.mod_lt _ hpos)
        rw [Nat.mul_comm, Nat.div_add_mod, List.getD_eq_getElem?_getD, List.getElem?_eq_getElem hi] at h1
        exact h1
      obtain ⟨out, o1, o2, o3, o4, o5⟩ := horizontal30Neon_fun rdm s t o (src := m) (dst := dst.buffer) (ss := src.width * 4)
        (ds := dst.stride) (H := dst.height) c0.1 c0.2.2.1
        (by rw [t2]; ring) (by rw [cd.1, Nat.mul_comm]) (le_refl _) cd.2 Th Sh tb
      refine ⟨out, ⟨vf, ev, rfl⟩, ⟨hf, eh, rfl⟩, Sv.q_valid Tv, Sh.q_valid Th, Wv, Wh, ?_, o2, ?_, o4, o5⟩
      · simp only [ev, eh, t1, o1, Option.bind_eq_bind, Option.bind_some]
      · intro y x c hy hx hc
        rw [o3 y x c hy hx hc]
        simp only [separableAt, if_neg hw, if_neg hh]
        refine hComp30_congr (fun _ _ => rfl) fun k hk => ?_
        have hin := Th.inside x hx
        rw [t3 y _ c hy (by omega) hc]
        rfl

/-! ### C193: every accepted call finishes -/

/-- **C193.** On aarch64, with or without the `rdm` instructions, with either workload strategy, in both layouts and both
byte orders, for every accepted convolution resize of packed 10-bit images (any filter, any pixels, any sums): the call
returns `Ok`, every load and store of the vector code stays inside its slice, the destination keeps its length and its
row padding, and every pixel written has full alpha. -/
theorem C193_no_oob (rdm : Bool) (s : Workload) (t : Rgb30) (o : Ar30Order) {W : ℕ} (L : Lib) {r : ResamplingFunction}
    {src dst : Image ℕ} (h : Call30 W r src dst) (hb : ∀ v ∈ src.buffer, v < 256) :
    ∃ out, resize30Neon rdm s W t o L r src dst = some (.ok (), out) ∧ out.length = dst.buffer.length ∧
      (∀ y x, y < dst.height → x < dst.width → pix30 (fmtLE t o) out dst.stride y x 3 = 3) ∧
      (∀ y p, y < dst.height → dst.width * 4 ≤ p → p < dst.stride →
        out[y * dst.stride + p]? = dst.buffer[y * dst.stride + p]?) := by
  obtain ⟨_, _, out, _, _, _, _, _, _, h1, h2, _, h3, h4⟩ := resize30Neon_fun rdm s t o (L := L) h hb
  exact ⟨out, h1, h2, h3, h4⟩

/-! ### C194: errors -/

/-- **C194.** On aarch64 `resize_ar30` returns `Ok` exactly for images of non-zero representable size whose buffers have
`stride * height` bytes with rows that hold the pixels; in every other case it returns an error of the documented kind
and does not touch the destination. -/
theorem C194_errors {rdm : Bool} {s : Workload} {W : ℕ} {t : Rgb30} {o : Ar30Order} {L : Lib} {r : ResamplingFunction}
    {src dst : Image ℕ} {res : Except Err Unit} {out : List ℕ} (h : resize30Neon rdm s W t o L r src dst = some (res, out)) :
    let nonZero := 0 < src.width ∧ 0 < src.height ∧ 0 < dst.width ∧ 0 < dst.height
    let srcFits := src.width * src.height * 4 < W
    let dstFits := dst.width * dst.height * 4 < W
    (res = .ok () ↔ nonZero ∧ srcFits ∧ dstFits ∧ LayoutOK 4 src ∧ LayoutOK 4 dst) ∧
    (∀ e, res = .error e → out = dst.buffer) ∧
    (¬ nonZero → res = .error .zeroImageDimensions) ∧
    (nonZero → ¬ srcFits → res = .error .sourceImageIsTooLarge) ∧
    (nonZero → srcFits → ¬ dstFits → res = .error .destinationImageIsTooLarge) ∧
    (nonZero → srcFits → dstFits → ¬ (LayoutOK 4 src ∧ LayoutOK 4 dst) →
      ∃ e, res = .error e ∧ (e.code = 4 ∨ e.code = 5)) := by
  intro nonZero srcFits dstFits
  have key : check30 W src dst = res ∧ (∀ e, res = .error e → out = dst.buffer) := by
    unfold resize30Neon at h
    cases hc : check30 W src dst with
    | error e =>
      rw [hc] at h
      simp only [Option.some.injEq, Prod.mk.injEq] at h
      exact ⟨h.1, fun _ _ => h.2.symm⟩
    | ok u =>
      rw [hc] at h
      have : res = .ok () := by
        simp only [Option.bind_eq_bind] at h
        split_ifs at h
        · simp at h; exact h.1.symm
        · obtain ⟨d, _, h⟩ := Option.bind_eq_some_iff.1 h
          simp at h; exact h.1.symm
        · obtain ⟨d, _, h⟩ := Option.bind_eq_some_iff.1 h
          obtain ⟨d, _, h⟩ := Option.bind_eq_some_iff.1 h
          simp at h; exact h.1.symm
        · obtain ⟨d, _, h⟩ := Option.bind_eq_some_iff.1 h
          obtain ⟨d, _, h⟩ := Option.bind_eq_some_iff.1 h
          obtain ⟨d, _, h⟩ := Option.bind_eq_some_iff.1 h
          obtain ⟨d, _, h⟩ := Option.bind_eq_some_iff.1 h
          simp at h; exact h.1.symm
        · obtain ⟨d, _, h⟩ := Option.bind_eq_some_iff.1 h
          obtain ⟨d, _, h⟩ := Option.bind_eq_some_iff.1 h
          simp at h; exact h.1.symm
      rw [this]
      exact ⟨rfl, by simp⟩
  obtain ⟨hres, hout⟩ := key
  subst hres
  refine ⟨check30_ok, hout, ?_, ?_, ?_, ?_⟩
  all_goals
    unfold check30
    simp only [bind, Except.bind, pure, Except.pure, throw, throwThe, MonadExceptOf.throw]
  · intro h0
    rw [if_pos (by simp only [nonZero] at h0; omega)]
  all_goals
    intro h0
    rw [if_neg (by simp only [nonZero] at h0; omega)]
    have hs : checkImageSizeOverflow W src.width src.height 4 = true ↔ W ≤ src.width * src.height * 4 :=
      C05_size_check h0.2.1
    have hd : checkImageSizeOverflow W dst.width dst.height 4 = true ↔ W ≤ dst.width * dst.height * 4 :=
      C05_size_check h0.2.2.2
    simp only [hs, hd]
  · intro h1
    rw [if_pos (by simp only [srcFits] at h1; omega)]
  · intro h1 h2
    rw [if_neg (by simp only [srcFits] at h1; omega), if_pos (by simp only [dstFits] at h2; omega)]
  · intro h1 h2 h3
    rw [if_neg (by simp only [srcFits] at h1; omega), if_neg (by simp only [dstFits] at h2; omega)]
    unfold LayoutOK at h3
    split_ifs
    · exact ⟨_, rfl, Or.inl rfl⟩
    · exact ⟨_, rfl, Or.inr rfl⟩
    · exact ⟨_, rfl, Or.inl rfl⟩
    · exact ⟨_, rfl, Or.inr rfl⟩
    · omega

/-! ### the handlers without `rdm` -/

/-- What a call writes when the `rdm` handlers are not selected and no sum can overflow. -/
theorem resize30Neon_plain {rdm : Bool} {s : Workload} (hp : useRdm30 rdm s = false) (t : Rgb30) (o : Ar30Order) {W : ℕ} {L : Lib}
    {r : ResamplingFunction} {src dst : Image ℕ} (h : Call30 W r src dst) (hs : Safe30 L r src dst) :
    ∃ qv qh out, IsTable L r src.height dst.height qv ∧ IsTable L r src.width dst.width qh ∧
      ValidTable qv src.height dst.height ∧ ValidTable qh src.width dst.width ∧
      resize30Neon rdm s W t o L r src dst = some (.ok (), out) ∧ out.length = dst.buffer.length ∧
      (∀ y x c, y < dst.height → x < dst.width → c < 3 → pix30 (fmtLE t o) out dst.stride y x c =
        separable src.width src.height dst.width dst.height
          (fun i => (qv.bound i).start) (fun i p => fixedDown 1023 (qv.bound i).size (fun k => qv.weight i k) p)
          (fun i => (qh.bound i).start)
          (fun i p => fixedDown 1023 (qh.bound i).size (fun k => qh.weight i k) fun k => p (tapNeon (qh.bound i).size k))
          (fun y x => pix30 (fmtLE t o) src.buffer src.stride y x c) y x) ∧
      (∀ y x, y < dst.height → x < dst.width → pix30 (fmtLE t o) out dst.stride y x 3 = 3) := by
  obtain ⟨qv, qh, out, a1, a2, a3, a4, wv, wh, a5, a6, a7, a8, _⟩ := resize30Neon_fun rdm s t o (L := L) h hs.bytes
  refine ⟨qv, qh, out, a1, a2, a3, a4, a5, a6, fun y x c hy hx hc => ?_, a8⟩
  have ov := hs.vertical qv a1
  have oh := hs.horizontal qh a2
  rw [a7 y x c hy hx hc]
  have hmid : ∀ x' , (if src.height = dst.height then pix30 (fmtLE t o) src.buffer src.stride y x' c
        else vComp30 (useRdm30 rdm s) src.width x' (fun k => qv.weight y k)
          (fun k => pix30 (fmtLE t o) src.buffer src.stride ((qv.bound y).start + k) x' c) (qv.bound y).size) =
      (if src.height = dst.height then pix30 (fmtLE t o) src.buffer src.stride y x' c
        else fixedDown 1023 (qv.bound y).size (fun k => qv.weight y k)
          (fun k => pix30 (fmtLE t o) src.buffer src.stride ((qv.bound y).start + k) x' c)) := by
    intro x'
    by_cases hh : src.height = dst.height
    · rw [if_pos hh, if_pos hh]
    · rw [if_neg hh, if_neg hh]
      unfold vComp30
      rw [hp, if_neg (by simp)]
      exact colN_eq (fun k _ => wv y k) (fun k _ => Nat.le_of_lt_succ (pix30_lt t o _ _ _ _ hc)) (by have := ov y hy; exact_mod_cast this)
  unfold separableAt separable
  simp only [hmid]
  by_cases hw : src.width = dst.width
  · rw [if_pos hw, if_pos hw]
  · rw [if_neg hw, if_neg hw]
    unfold hComp30
    rw [hp, if_neg (by simp)]
    refine rowN_eq (a4.size_pos x hx) (fun k _ => wh x k) (fun k _ => ?_) (by have := oh x hx; exact_mod_cast this)
    split_ifs
    · exact Nat.le_of_lt_succ (pix30_lt t o _ _ _ _ hc)
    · exact clamp_le _ _

/-- **C195.** A resize of packed images that keeps the width, on aarch64 without the `rdm` handlers (`PreferQuality`, or a
processor without `rdm`): every component of every pixel in every column is the full fixed point sum over its window (all
taps, in order), rounded to nearest with halves down, clamped; alpha is full; the result is that of the portable code
except at exact ties, where it may be one less. -/
theorem C195_vertical {rdm : Bool} {s : Workload} (hp : useRdm30 rdm s = false) (t : Rgb30) (o : Ar30Order)
    {W : ℕ} {L : Lib} {r : ResamplingFunction} {src dst : Image ℕ} (h : Call30 W r src dst) (hs : Safe30 L r src dst)
    (hw : src.width = dst.width) :
    ∃ q out ref, IsTable L r src.height dst.height q ∧ ValidTable q src.height dst.height ∧
      resize30Neon rdm s W t o L r src dst = some (.ok (), out) ∧
      resize30 W (fmtLE t o) L r src dst = some (.ok (), ref) ∧
      ∀ y x, y < dst.height → x < dst.width →
        pix30 (fmtLE t o) out dst.stride y x 3 = 3 ∧
        ∀ c, c < 3 →
          let v := wsum (q.bound y).size (fun k => q.weight y k)
            (fun k => (pix30 (fmtLE t o) src.buffer src.stride ((q.bound y).start + k) x c : ℤ))
          pix30 (fmtLE t o) out dst.stride y x c = clamp 1023 ((v + (2 ^ 14 - 1)) / 2 ^ 15) ∧
          pix30 (fmtLE t o) ref dst.stride y x c = clamp 1023 ((v + 2 ^ 14) / 2 ^ 15) ∧
          (v % 2 ^ 15 ≠ 2 ^ 14 → pix30 (fmtLE t o) out dst.stride y x c = pix30 (fmtLE t o) ref dst.stride y x c) ∧
          pix30 (fmtLE t o) out dst.stride y x c ≤ pix30 (fmtLE t o) ref dst.stride y x c ∧
          pix30 (fmtLE t o) ref dst.stride y x c ≤ pix30 (fmtLE t o) out dst.stride y x c + 1 := by
  have hh : src.height ≠ dst.height := by have := h.sizes; tauto
  obtain ⟨qv, qh, out, a1, _, a3, _, a5, _, a7, a8⟩ := resize30Neon_plain hp t o h hs
  obtain ⟨qv', qh', ref, b1, _, _, _, b5, _, b7, _⟩ := resize30_exact (fmtLE t o) (h.portable hs) h.strides
  obtain ⟨f1, e1, rfl⟩ := a1
  obtain ⟨f1', e1', rfl⟩ := b1
  rw [e1] at e1'
  obtain rfl := Option.some.inj e1'
  refine ⟨_, out, ref, ⟨f1, e1, rfl⟩, a3, a5, b5, fun y x hy hx => ⟨a8 y x hy hx, ?_⟩⟩
  intro c hc v
  have ea := a7 y x c hy hx hc
  have eb := b7 y x c hy hx hc
  simp only [separable, if_pos hw, if_neg hh] at ea eb
  have ea' : pix30 (fmtLE t o) out dst.stride y x c = clamp 1023 (fixDown v) := ea
  have eb' : pix30 (fmtLE t o) ref dst.stride y x c = clamp 1023 (fixRound v) := eb
  have d := down_round v
  refine ⟨ea', by rw [eb', fixRound_int], ?_⟩
  rw [ea', eb']
  exact d

/-! ### C196: the horizontal pass without `rdm` -/

/-- **C196 (partial).** On aarch64 without the `rdm` handlers a resize of packed images is the separable resize of the
three components (halves rounded down in both passes), with full alpha, in every row, when no window of the horizontal
filter has more than four pixels. Missing: larger windows, where the vector code pairs weights with the wrong pixels
(`C196_violated`). -/
theorem C196_separable_partial {rdm : Bool} {s : Workload} (hp : useRdm30 rdm s = false) (t : Rgb30) (o : Ar30Order) {W : ℕ}
    {L : Lib} {r : ResamplingFunction} {src dst : Image ℕ} (h : Call30 W r src dst) (hs : Safe30 L r src dst)
    (hwin : ∀ q, IsTable L r src.width dst.width q → ∀ x, x < dst.width → (q.bound x).size ≤ 4) :
    ∃ qv qh out, IsTable L r src.height dst.height qv ∧ IsTable L r src.width dst.width qh ∧
      ValidTable qv src.height dst.height ∧ ValidTable qh src.width dst.width ∧
      resize30Neon rdm s W t o L r src dst = some (.ok (), out) ∧ out.length = dst.buffer.length ∧
      (∀ y x c, y < dst.height → x < dst.width → c < 3 → pix30 (fmtLE t o) out dst.stride y x c =
        separable src.width src.height dst.width dst.height
          (fun i => (qv.bound i).start) (fun i p => fixedDown 1023 (qv.bound i).size (fun k => qv.weight i k) p)
          (fun i => (qh.bound i).start) (fun i p => fixedDown 1023 (qh.bound i).size (fun k => qh.weight i k) p)
          (fun y x => pix30 (fmtLE t o) src.buffer src.stride y x c) y x) ∧
      (∀ y x, y < dst.height → x < dst.width → pix30 (fmtLE t o) out dst.stride y x 3 = 3) := by
  obtain ⟨qv, qh, out, a1, a2, a3, a4, a5, a6, a7, a8⟩ := resize30Neon_plain hp t o h hs
  refine ⟨qv, qh, out, a1, a2, a3, a4, a5, a6, fun y x c hy hx hc => ?_, a8⟩
  rw [a7 y x c hy hx hc]
  have ht : ∀ k, tapNeon (qh.bound x).size k = k := fun k => tapNeon_small (hwin qh a2 x hx)
  unfold separable
  simp only [ht]

/-- **C196 is false for larger windows**: four rows of eight pixels reduced to three. The middle window has five pixels;
the vector code uses pixels 0, 3, 2, 3, 4 of it instead of 0, 1, 2, 3, 4. Red comes out as 378 where the portable code
gives 344. -/
theorem C196_violated : ∃ (L : Lib) (src dst : Image ℕ) (out ref : List ℕ),
    check30 (2 ^ 64) src dst = .ok () ∧ src.height = dst.height ∧
    resize30Neon false .preferQuality (2 ^ 64) .ar30 .host L .bilinear src dst = some (.ok (), out) ∧
    resize30 (2 ^ 64) (fmtLE .ar30 .host) L .bilinear src dst = some (.ok (), ref) ∧
    pix30 (fmtLE .ar30 .host) ref dst.stride 0 1 0 = 344 ∧ pix30 (fmtLE .ar30 .host) out dst.stride 0 1 0 = 378 := by
  refine ⟨demoLib, ⟨Demo.four30, 4, 8, 4, 32, 0⟩, ⟨List.replicate 48 0, 4, 3, 4, 12, 0⟩,
    ((resize30Neon false .preferQuality (2 ^ 64) .ar30 .host demoLib .bilinear ⟨Demo.four30, 4, 8, 4, 32, 0⟩
      ⟨List.replicate 48 0, 4, 3, 4, 12, 0⟩).getD (.ok (), [])).2,
    ((resize30 (2 ^ 64) (fmtLE .ar30 .host) demoLib .bilinear ⟨Demo.four30, 4, 8, 4, 32, 0⟩
      ⟨List.replicate 48 0, 4, 3, 4, 12, 0⟩).getD (.ok (), [])).2, ?_, rfl, ?_, ?_, ?_, ?_⟩
  · decide +kernel
  · decide +kernel
  · decide +kernel
  · decide +kernel
  · decide +kernel

/-! ### C197: rows of one colour -/

/-- **C197.** On aarch64 without the `rdm` handlers, a source whose rows are of one colour each is scaled horizontally to
the right brightness, in every row, for windows of every size: each component is the source component times the sum of
the weights, rounded with halves down, within one of what the portable code computes from the same table. -/
theorem C197_flat_rows {rdm : Bool} {s : Workload} (hp : useRdm30 rdm s = false) (t : Rgb30) (o : Ar30Order) {W : ℕ} {L : Lib}
    {r : ResamplingFunction} {src dst : Image ℕ} (h : Call30 W r src dst) (hs : Safe30 L r src dst)
    (hh : src.height = dst.height)
    (colour : ℕ → ℕ → ℕ) (hflat : ∀ y x c, y < src.height → x < src.width → c < 3 →
      pix30 (fmtLE t o) src.buffer src.stride y x c = colour y c) :
    ∃ q out, IsTable L r src.width dst.width q ∧ resize30Neon rdm s W t o L r src dst = some (.ok (), out) ∧
      ∀ y x c, y < dst.height → x < dst.width → c < 3 →
        let v := (∑ k ∈ range (q.bound x).size, q.weight x k) * (colour y c : ℤ)
        pix30 (fmtLE t o) out dst.stride y x c = clamp 1023 ((v + (2 ^ 14 - 1)) / 2 ^ 15) ∧
        pix30 (fmtLE t o) out dst.stride y x c ≤
          fixedRound 1023 (q.bound x).size (fun k => q.weight x k) (fun _ => colour y c) ∧
        fixedRound 1023 (q.bound x).size (fun k => q.weight x k) (fun _ => colour y c) ≤
          pix30 (fmtLE t o) out dst.stride y x c + 1 := by
  have hw : src.width ≠ dst.width := by have := h.sizes; tauto
  obtain ⟨qv, qh, out, _, a2, _, a4, a5, _, a7, _⟩ := resize30Neon_plain hp t o h hs
  refine ⟨qh, out, a2, a5, fun y x c hy hx hc => ?_⟩
  intro v
  have e := a7 y x c hy hx hc
  simp only [separable, if_neg hw, if_pos hh] at e
  have hsum : wsum (qh.bound x).size (fun k => qh.weight x k) (fun _ => (colour y c : ℤ)) = v := by
    unfold wsum
    rw [← sum_mul]
  have e2 : pix30 (fmtLE t o) out dst.stride y x c = clamp 1023 (fixDown v) := by
    rw [e]
    unfold fixedDown
    rw [← hsum]
    congr 2
    apply wsum_congr (fun _ _ => rfl)
    intro k hk
    have := a4.inside x hx
    have := tapNeon_lt hk
    dsimp only
    rw [hflat y _ c (by omega) (by omega) hc]
  have d := down_round v
  have er : fixedRound 1023 (qh.bound x).size (fun k => qh.weight x k) (fun _ => colour y c) = clamp 1023 (fixRound v) := by
    unfold fixedRound
    rw [hsum]
  refine ⟨e2, ?_⟩
  rw [e2, er]
  exact d.2

/-! ### C198: locality -/

/-- **C198.** On aarch64, with either strategy, with or without `rdm`, whether or not a sum overflows, a destination pixel
depends on the source pixels of its window only: two pictures (stored with any strides and padding) that agree, in the
component, on the rows of the vertical window and the columns of the horizontal window of a destination pixel give that
pixel the same value. In particular the misplaced taps never reach outside the window. -/
theorem C198_locality {rdm : Bool} {s : Workload} (t : Rgb30) (o : Ar30Order) {W : ℕ} {L : Lib}
    {r : ResamplingFunction} {src dst src' dst' : Image ℕ} (h : Call30 W r src dst) (hb : ∀ v ∈ src.buffer, v < 256)
    (h' : Call30 W r src' dst') (hb' : ∀ v ∈ src'.buffer, v < 256)
    (hsz : src.width = src'.width ∧ src.height = src'.height) (hdz : dst.width = dst'.width ∧ dst.height = dst'.height) :
    ∃ qv qh out out', IsTable L r src.height dst.height qv ∧ IsTable L r src.width dst.width qh ∧
      resize30Neon rdm s W t o L r src dst = some (.ok (), out) ∧ resize30Neon rdm s W t o L r src' dst' = some (.ok (), out') ∧
      ∀ y x c, y < dst.height → x < dst.width → c < 3 →
        (∀ y' x',
          (if src.height = dst.height then y' = y
            else (qv.bound y).start ≤ y' ∧ y' < (qv.bound y).start + (qv.bound y).size) →
          (if src.width = dst.width then x' = x
            else (qh.bound x).start ≤ x' ∧ x' < (qh.bound x).start + (qh.bound x).size) →
          pix30 (fmtLE t o) src.buffer src.stride y' x' c = pix30 (fmtLE t o) src'.buffer src'.stride y' x' c) →
        pix30 (fmtLE t o) out dst.stride y x c = pix30 (fmtLE t o) out' dst'.stride y x c := by
  obtain ⟨qv, qh, out, a1, a2, _, _, _, _, a5, _, a7, _⟩ := resize30Neon_fun rdm s t o (L := L) h hb
  obtain ⟨qv', qh', out', b1, b2, _, _, _, _, b5, _, b7, _⟩ := resize30Neon_fun rdm s t o (L := L) h' hb'
  rw [← hsz.1, ← hdz.1] at b2
  rw [← hsz.2, ← hdz.2] at b1
  obtain ⟨fv, e1, rfl⟩ := a1
  obtain ⟨fv', e1', rfl⟩ := b1
  obtain ⟨fh, e2, rfl⟩ := a2
  obtain ⟨fh', e2', rfl⟩ := b2
  rw [e1] at e1'
  rw [e2] at e2'
  obtain rfl := Option.some.inj e1'
  obtain rfl := Option.some.inj e2'
  refine ⟨_, _, out, out', ⟨fv, e1, rfl⟩, ⟨fh, e2, rfl⟩, a5, b5, fun y x c hy hx hc hp => ?_⟩
  rw [a7 y x c hy hx hc, b7 y x c (by omega) (by omega) hc, ← hsz.1, ← hsz.2, ← hdz.1, ← hdz.2]
  unfold separableAt
  simp only
  by_cases hw : src.width = dst.width
  · simp only [if_pos hw] at hp ⊢
    by_cases hh : src.height = dst.height
    · simp only [if_pos hh] at hp ⊢
      exact hp y x rfl rfl
    · simp only [if_neg hh] at hp ⊢
      exact vComp30_congr (fun _ _ => rfl) fun k hk => hp _ x ⟨by omega, by omega⟩ rfl
  · simp only [if_neg hw] at hp ⊢
    refine hComp30_congr (fun _ _ => rfl) fun k hk => ?_
    by_cases hh : src.height = dst.height
    · simp only [if_pos hh] at hp ⊢
      exact hp y _ rfl ⟨by omega, by omega⟩
    · simp only [if_neg hh] at hp ⊢
      exact vComp30_congr (fun _ _ => rfl) fun k' hk' => hp _ _ ⟨by omega, by omega⟩ ⟨by omega, by omega⟩

/-! ### C199, C200: the vertical pass with `rdm` -/

theorem fits32_overflow {n : ℕ} {w : ℕ → ℤ} (h : Fits32 n w) : (∑ k ∈ range n, |w k|) * 1023 + 2 ^ 14 < 2 ^ 30 := by
  unfold Fits32 at h
  have : (0 : ℤ) ≤ (n : ℤ) := Int.natCast_nonneg n
  norm_num
  omega

/-- One component of a pixel of the `rdm` column handler, when no sum overflows. -/
theorem colRdm_eq {width x : ℕ} {w : ℕ → ℤ} {p : ℕ → ℕ} {n : ℕ} (hw : ∀ k, k < n → -32768 ≤ w k ∧ w k ≤ 32767)
    (hp : ∀ k, p k ≤ 1023) (hO : Fits32 n w) :
    colRdm width x w p n = if x < tailColumn width then fixedThirtySecond 1023 n w p else fixedRound 1023 n w p := by
  unfold colRdm
  rw [colR_eq hw (fun k _ => hp k) hO]
  have hb := wsum30At (n := n) (w := w) (p := fun k => (p k : ℤ)) (fun k => ⟨Int.natCast_nonneg _, by exact_mod_cast hp k⟩)
    (by exact_mod_cast fits32_overflow hO)
  rw [i32_eq_self (by norm_num; omega) (by norm_num; omega), saturate30_round]
  rfl

/-- **C199.** `PreferSpeed` on a processor with `rdm`, width unchanged, windows of at most 64 rows whose weights cannot
push a partial sum of products out of 16 bits: in the columns handled eight at a time each component is the sum of the
products rounded to a 32nd, rounded to the nearest integer; in the other columns it is the sum rounded once. In every
column it is within one of the exact fixed point sum rounded to nearest (the portable result), and alpha is full. -/
theorem C199_columns {rdm : Bool} {s : Workload} (hp : useRdm30 rdm s = true) (t : Rgb30) (o : Ar30Order)
    {W : ℕ} {L : Lib} {r : ResamplingFunction} {src dst : Image ℕ} (h : Call30 W r src dst) (hb : ∀ v ∈ src.buffer, v < 256)
    (hw : src.width = dst.width)
    (hfit : ∀ q, IsTable L r src.height dst.height q → ∀ y, y < dst.height → (q.bound y).size ≤ 64 ∧
      1023 * (∑ k ∈ range (q.bound y).size, |q.weight y k|) + 512 * (q.bound y).size ≤ 32767 * 1024) :
    ∃ q out, IsTable L r src.height dst.height q ∧ ValidTable q src.height dst.height ∧
      resize30Neon rdm s W t o L r src dst = some (.ok (), out) ∧
      ∀ y x, y < dst.height → x < dst.width →
        pix30 (fmtLE t o) out dst.stride y x 3 = 3 ∧
        ∀ c, c < 3 →
          let exact := fixedRound 1023 (q.bound y).size (fun k => q.weight y k)
            (fun k => pix30 (fmtLE t o) src.buffer src.stride ((q.bound y).start + k) x c)
          pix30 (fmtLE t o) out dst.stride y x c = (if x < tailColumn dst.width then
            fixedThirtySecond 1023 (q.bound y).size (fun k => q.weight y k)
              (fun k => pix30 (fmtLE t o) src.buffer src.stride ((q.bound y).start + k) x c) else exact) ∧
          pix30 (fmtLE t o) out dst.stride y x c ≤ exact + 1 ∧ exact ≤ pix30 (fmtLE t o) out dst.stride y x c + 1 := by
  have hh : src.height ≠ dst.height := by have := h.sizes; tauto
  obtain ⟨qv, qh, out, a1, _, a3, _, wv, _, a5, _, a7, a8, _⟩ := resize30Neon_fun rdm s t o (L := L) h hb
  refine ⟨qv, out, a1, a3, a5, fun y x hy hx => ⟨a8 y x hy hx, ?_⟩⟩
  intro c hc exact
  have e := a7 y x c hy hx hc
  simp only [separableAt, if_pos hw, if_neg hh] at e
  obtain ⟨h64, hf⟩ := hfit qv a1 y hy
  unfold vComp30 at e
  rw [if_pos hp, colRdm_eq (fun k _ => wv y k) (fun k => Nat.le_of_lt_succ (pix30_lt t o _ _ _ _ hc)) hf, hw] at e
  refine ⟨e, ?_⟩
  rw [e]
  split_ifs
  · exact thirtySecond_err h64 _ _
  · exact ⟨Nat.le_succ _, Nat.le_succ _⟩

/-- **C200 (partial).** `PreferSpeed` on a processor with `rdm`, width unchanged: a white picture stays white when the
weights of every window sum to at least one, no window has more than 32 rows and no partial sum can leave 16 bits.
Missing: filters with negative lobes, whose partial sums do leave 16 bits (`C200_violated`). -/
theorem C200_white_partial {rdm : Bool} {s : Workload} (hp : useRdm30 rdm s = true) (t : Rgb30) (o : Ar30Order)
    {W : ℕ} {L : Lib} {r : ResamplingFunction} {src dst : Image ℕ} (h : Call30 W r src dst) (hb : ∀ v ∈ src.buffer, v < 256)
    (hw : src.width = dst.width)
    (hfit : ∀ q, IsTable L r src.height dst.height q → ∀ y, y < dst.height → (q.bound y).size ≤ 32 ∧
      32768 ≤ ∑ k ∈ range (q.bound y).size, q.weight y k ∧
      1023 * (∑ k ∈ range (q.bound y).size, |q.weight y k|) + 512 * (q.bound y).size ≤ 32767 * 1024)
    (hwhite : ∀ y x c, y < src.height → x < src.width → c < 3 → pix30 (fmtLE t o) src.buffer src.stride y x c = 1023) :
    ∃ out, resize30Neon rdm s W t o L r src dst = some (.ok (), out) ∧
      ∀ y x c, y < dst.height → x < dst.width → c < 3 → pix30 (fmtLE t o) out dst.stride y x c = 1023 := by
  obtain ⟨q, out, a1, a2, a3, a4⟩ := C199_columns hp t o h hb hw (fun q hq y hy => by
    obtain ⟨h1, _, h3⟩ := hfit q hq y hy
    exact ⟨by omega, h3⟩)
  refine ⟨out, a3, fun y x c hy hx hc => ?_⟩
  obtain ⟨h32, h1, _⟩ := hfit q a1 y hy
  have e := ((a4 y x hy hx).2 c hc).1
  have hpx : ∀ k, k < (q.bound y).size → pix30 (fmtLE t o) src.buffer src.stride ((q.bound y).start + k) x c = 1023 := by
    intro k hk
    have := a2.inside y hy
    exact hwhite _ _ _ (by omega) (by omega) hc
  have hsum : wsum (q.bound y).size (fun k => q.weight y k)
      (fun k => (pix30 (fmtLE t o) src.buffer src.stride ((q.bound y).start + k) x c : ℤ)) =
      (∑ k ∈ range (q.bound y).size, q.weight y k) * 1023 := by
    unfold wsum
    rw [sum_mul]
    exact sum_congr rfl fun k hk => by dsimp only; rw [hpx k (by simpa using hk)]; rfl
  rw [e]
  have hn : ((q.bound y).size : ℤ) ≤ 32 := by exact_mod_cast h32
  split_ifs
  · unfold fixedThirtySecond
    have hE := abs_le.1 (near_sum_err (s := 10) (by norm_num) (n := (q.bound y).size) (fun k => q.weight y k)
      (fun k => pix30 (fmtLE t o) src.buffer src.stride ((q.bound y).start + k) x c))
    rw [hsum] at hE
    rw [nearestPow_int 5 (by norm_num)]
    norm_num at hE ⊢
    generalize ∑ k ∈ range (q.bound y).size, nearestPow 10 _ = T at *
    unfold clamp
    omega
  · unfold fixedRound
    rw [hsum, fixRound_int]
    norm_num
    unfold clamp
    omega

/-- Six white rows of twelve pixels. -/
def Demo.white30 : Image ℕ := ⟨(List.range 72).flatMap fun _ =>
  toNeBytes .little (pack30 .little .ar30 .host 1023 1023 1023), 4, 12, 6, 48, 0⟩
def Demo.whiteDst : Image ℕ := ⟨List.replicate 192 0, 4, 12, 4, 48, 0⟩

/-- **C200 is false for filters with negative lobes**: six white rows reduced to four with Catmull-Rom, `PreferSpeed`, on
a processor with `rdm`. The first destination row comes out as 983 in the eight columns of the vector code and as 1023 in
the four columns after them; `PreferQuality` gives 1023 everywhere. -/
theorem C200_violated : ∃ (L : Lib) (out ref : List ℕ),
    (∀ y x c, y < 6 → x < 12 → c < 3 → pix30 (fmtLE .ar30 .host) Demo.white30.buffer 48 y x c = 1023) ∧
    resize30Neon true .preferSpeed (2 ^ 64) .ar30 .host L .catmullRom Demo.white30 Demo.whiteDst = some (.ok (), out) ∧
    resize30Neon true .preferQuality (2 ^ 64) .ar30 .host L .catmullRom Demo.white30 Demo.whiteDst = some (.ok (), ref) ∧
    pix30 (fmtLE .ar30 .host) out 48 0 7 0 = 983 ∧ pix30 (fmtLE .ar30 .host) out 48 0 8 0 = 1023 ∧
    pix30 (fmtLE .ar30 .host) ref 48 0 7 0 = 1023 := by
  refine ⟨demoLib,
    ((resize30Neon true .preferSpeed (2 ^ 64) .ar30 .host demoLib .catmullRom Demo.white30 Demo.whiteDst).getD (.ok (), [])).2,
    ((resize30Neon true .preferQuality (2 ^ 64) .ar30 .host demoLib .catmullRom Demo.white30 Demo.whiteDst).getD (.ok (), [])).2,
    ?_, ?_, ?_, ?_, ?_, ?_⟩
  · have : ∀ y < 6, ∀ x < 12, ∀ c < 3, pix30 (fmtLE .ar30 .host) Demo.white30.buffer 48 y x c = 1023 := by decide +kernel
    intro y x c hy hx hc
    exact this y hy x hx c hc
  · decide +kernel
  · decide +kernel
  · decide +kernel
  · decide +kernel
  · decide +kernel

/-! ### C201: the horizontal pass with `rdm` -/

/-- **C201 (partial).** `PreferSpeed` on a processor with `rdm`, height unchanged, windows of at most eight pixels whose
weights cannot push a sum out of 16 bits: in the rows handled in groups of four each component is the sum of the products
rounded to a 16th, rounded to the nearest integer — within one of the exact fixed point sum rounded to nearest. Missing:
larger windows, where the groups of eight pixels are permuted (`C201_violated`). -/
theorem C201_rows_partial {rdm : Bool} {s : Workload} (hp : useRdm30 rdm s = true) (t : Rgb30) (o : Ar30Order)
    {W : ℕ} {L : Lib} {r : ResamplingFunction} {src dst : Image ℕ} (h : Call30 W r src dst) (hb : ∀ v ∈ src.buffer, v < 256)
    (hh : src.height = dst.height)
    (hfit : ∀ q, IsTable L r src.width dst.width q → ∀ x, x < dst.width → (q.bound x).size ≤ 8 ∧
      1023 * (∑ k ∈ range (q.bound x).size, |q.weight x k|) + 1024 * (q.bound x).size + 8 * 2048 ≤ 32767 * 2048) :
    ∃ q out, IsTable L r src.width dst.width q ∧ ValidTable q src.width dst.width ∧
      resize30Neon rdm s W t o L r src dst = some (.ok (), out) ∧
      ∀ y x c, y < 4 * (dst.height / 4) → x < dst.width → c < 3 →
        let exact := fixedRound 1023 (q.bound x).size (fun k => q.weight x k)
          (fun k => pix30 (fmtLE t o) src.buffer src.stride y ((q.bound x).start + k) c)
        pix30 (fmtLE t o) out dst.stride y x c = fixedSixteenth 1023 (q.bound x).size (fun k => q.weight x k)
          (fun k => pix30 (fmtLE t o) src.buffer src.stride y ((q.bound x).start + k) c) ∧
        pix30 (fmtLE t o) out dst.stride y x c ≤ exact + 1 ∧ exact ≤ pix30 (fmtLE t o) out dst.stride y x c + 1 := by
  have hw : src.width ≠ dst.width := by have := h.sizes; tauto
  obtain ⟨qv, qh, out, _, a2, _, a4, _, wh, a5, _, a7, _⟩ := resize30Neon_fun rdm s t o (L := L) h hb
  refine ⟨qh, out, a2, a4, a5, fun y x c hy hx hc => ?_⟩
  intro exact
  obtain ⟨h8, hf⟩ := hfit qh a2 x hx
  have e := a7 y x c (by omega) hx hc
  simp only [separableAt, if_neg hw, if_pos hh] at e
  unfold hComp30 at e
  rw [if_pos ⟨hp, hy⟩, rowR_eq (a4.size_pos x hx) (fun k _ => wh x k) (fun k _ => Nat.le_of_lt_succ (pix30_lt t o _ _ _ _ hc)) hf] at e
  simp only [tapShuffled_small h8] at e
  refine ⟨e, ?_⟩
  rw [e]
  exact sixteenth_err (by omega) _ _

/-- Four equal rows of twenty pixels; green only in pixel 5. -/
def Demo.long30 : List ℕ := (List.range 20).flatMap fun i =>
  toNeBytes .little (pack30 .little .ar30 .host (50 * i) (if i = 5 then 1023 else 0) 7)

/-- **C201 is false for larger windows**: four rows of twenty pixels reduced to two. Green comes out as 99 where the
portable code gives 111. -/
theorem C201_violated : ∃ (L : Lib) (src dst : Image ℕ) (out ref : List ℕ),
    check30 (2 ^ 64) src dst = .ok () ∧ src.height = dst.height ∧ dst.height = 4 ∧
    resize30Neon true .preferSpeed (2 ^ 64) .ar30 .host L .bilinear src dst = some (.ok (), out) ∧
    resize30 (2 ^ 64) (fmtLE .ar30 .host) L .bilinear src dst = some (.ok (), ref) ∧
    pix30 (fmtLE .ar30 .host) ref dst.stride 0 0 1 = 111 ∧ pix30 (fmtLE .ar30 .host) out dst.stride 0 0 1 = 99 := by
  refine ⟨demoLib, ⟨Demo.long30 ++ Demo.long30 ++ Demo.long30 ++ Demo.long30, 4, 20, 4, 80, 0⟩, ⟨List.replicate 32 9, 4, 2, 4, 8, 0⟩,
    ((resize30Neon true .preferSpeed (2 ^ 64) .ar30 .host demoLib .bilinear
      ⟨Demo.long30 ++ Demo.long30 ++ Demo.long30 ++ Demo.long30, 4, 20, 4, 80, 0⟩ ⟨List.replicate 32 9, 4, 2, 4, 8, 0⟩).getD (.ok (), [])).2,
    ((resize30 (2 ^ 64) (fmtLE .ar30 .host) demoLib .bilinear
      ⟨Demo.long30 ++ Demo.long30 ++ Demo.long30 ++ Demo.long30, 4, 20, 4, 80, 0⟩ ⟨List.replicate 32 9, 4, 2, 4, 8, 0⟩).getD (.ok (), [])).2,
    ?_, rfl, rfl, ?_, ?_, ?_, ?_⟩
  · decide +kernel
  · decide +kernel
  · decide +kernel
  · decide +kernel
  · decide +kernel

/-! ### C202, C203: equal rows -/

/-- **C202.** On aarch64 without the `rdm` handlers, in a resize that keeps the height, what a row becomes depends on the
pixels of the row only, not on its position: two rows with equal pixels (even of two images of different heights) become
rows with equal pixels. No assumption on the sums. -/
theorem C202_equal_rows {rdm : Bool} {s : Workload} (hp : useRdm30 rdm s = false) (t : Rgb30) (o : Ar30Order) {W : ℕ} {L : Lib}
    {r : ResamplingFunction} {src dst src' dst' : Image ℕ} (h : Call30 W r src dst) (hb : ∀ v ∈ src.buffer, v < 256)
    (h' : Call30 W r src' dst') (hb' : ∀ v ∈ src'.buffer, v < 256) (hh : src.height = dst.height) (hh' : src'.height = dst'.height)
    (hwd : src.width = src'.width ∧ dst.width = dst'.width) :
    ∃ out out', resize30Neon rdm s W t o L r src dst = some (.ok (), out) ∧
      resize30Neon rdm s W t o L r src' dst' = some (.ok (), out') ∧
      ∀ y y', y < dst.height → y' < dst'.height →
        (∀ x c, x < src.width → c < 3 →
          pix30 (fmtLE t o) src.buffer src.stride y x c = pix30 (fmtLE t o) src'.buffer src'.stride y' x c) →
        ∀ x c, x < dst.width → c < 3 → pix30 (fmtLE t o) out dst.stride y x c = pix30 (fmtLE t o) out' dst'.stride y' x c := by
  have hw : src.width ≠ dst.width := by have := h.sizes; tauto
  obtain ⟨qv, qh, out, _, a2, _, a4, _, _, a5, _, a7, _⟩ := resize30Neon_fun rdm s t o (L := L) h hb
  obtain ⟨qv', qh', out', _, b2, _, _, _, _, b5, _, b7, _⟩ := resize30Neon_fun rdm s t o (L := L) h' hb'
  rw [← hwd.1, ← hwd.2] at b2
  obtain ⟨fh, e2, rfl⟩ := a2
  obtain ⟨fh', e2', rfl⟩ := b2
  rw [e2] at e2'
  obtain rfl := Option.some.inj e2'
  refine ⟨out, out', a5, b5, fun y y' hy hy' heq x c hx hc => ?_⟩
  rw [a7 y x c hy hx hc, b7 y' x c hy' (by omega) hc, ← hwd.1, ← hwd.2]
  simp only [separableAt, if_neg hw, if_pos hh, if_pos hh']
  unfold hComp30
  rw [hp, if_neg (by simp), if_neg (by simp)]
  refine rowN_congr (fun _ _ => rfl) fun k hk => ?_
  have := a4.inside x hx
  exact heq _ c (by omega) hc

/-- **C203 (partial).** With the `rdm` handlers the same holds for two rows that are both in groups of four or both among
the rows left over. Missing: one of each (`C203_violated`). -/
theorem C203_equal_rows_partial {rdm : Bool} {s : Workload} (t : Rgb30) (o : Ar30Order) {W : ℕ} {L : Lib}
    {r : ResamplingFunction} {src dst src' dst' : Image ℕ} (h : Call30 W r src dst) (hb : ∀ v ∈ src.buffer, v < 256)
    (h' : Call30 W r src' dst') (hb' : ∀ v ∈ src'.buffer, v < 256) (hh : src.height = dst.height) (hh' : src'.height = dst'.height)
    (hwd : src.width = src'.width ∧ dst.width = dst'.width) :
    ∃ out out', resize30Neon rdm s W t o L r src dst = some (.ok (), out) ∧
      resize30Neon rdm s W t o L r src' dst' = some (.ok (), out') ∧
      ∀ y y', y < dst.height → y' < dst'.height → (y < dst.height / 4 * 4 ↔ y' < dst'.height / 4 * 4) →
        (∀ x c, x < src.width → c < 3 →
          pix30 (fmtLE t o) src.buffer src.stride y x c = pix30 (fmtLE t o) src'.buffer src'.stride y' x c) →
        ∀ x c, x < dst.width → c < 3 → pix30 (fmtLE t o) out dst.stride y x c = pix30 (fmtLE t o) out' dst'.stride y' x c := by
  have hw : src.width ≠ dst.width := by have := h.sizes; tauto
  obtain ⟨qv, qh, out, _, a2, _, a4, _, _, a5, _, a7, _⟩ := resize30Neon_fun rdm s t o (L := L) h hb
  obtain ⟨qv', qh', out', _, b2, _, _, _, _, b5, _, b7, _⟩ := resize30Neon_fun rdm s t o (L := L) h' hb'
  rw [← hwd.1, ← hwd.2] at b2
  obtain ⟨fh, e2, rfl⟩ := a2
  obtain ⟨fh', e2', rfl⟩ := b2
  rw [e2] at e2'
  obtain rfl := Option.some.inj e2'
  refine ⟨out, out', a5, b5, fun y y' hy hy' hg heq x c hx hc => ?_⟩
  rw [a7 y x c hy hx hc, b7 y' x c hy' (by omega) hc, ← hwd.1, ← hwd.2]
  simp only [separableAt, if_neg hw, if_pos hh, if_pos hh']
  have e : hComp30 (useRdm30 rdm s) dst.height y = hComp30 (useRdm30 rdm s) dst'.height y' := by
    unfold hComp30
    have : (y < 4 * (dst.height / 4)) = (y' < 4 * (dst'.height / 4)) := propext (by omega)
    simp only [this]
  rw [e]
  refine hComp30_congr (fun _ _ => rfl) fun k hk => ?_
  have := a4.inside x hx
  exact heq _ c (by omega) hc

/-- **C203 is false**: five equal rows of eight pixels reduced to three with `PreferSpeed` on a processor with `rdm`: the
middle pixel has red 344 in the first four rows and 378 in the fifth. -/
theorem C203_violated : ∃ (L : Lib) (dst : Image ℕ) (out : List ℕ),
    check30 (2 ^ 64) Demo.rows5 dst = .ok () ∧ Demo.rows5.height = dst.height ∧
    (∀ i, i < 32 → Demo.rows5.buffer[i]? = Demo.rows5.buffer[32 * 4 + i]?) ∧
    resize30Neon true .preferSpeed (2 ^ 64) .ar30 .host L .bilinear Demo.rows5 dst = some (.ok (), out) ∧
    pix30 (fmtLE .ar30 .host) out dst.stride 0 1 0 = 344 ∧ pix30 (fmtLE .ar30 .host) out dst.stride 4 1 0 = 378 := by
  refine ⟨demoLib, ⟨List.replicate 60 0, 4, 3, 5, 12, 0⟩,
    ((resize30Neon true .preferSpeed (2 ^ 64) .ar30 .host demoLib .bilinear Demo.rows5
      ⟨List.replicate 60 0, 4, 3, 5, 12, 0⟩).getD (.ok (), [])).2, ?_, rfl, ?_, ?_, ?_, ?_⟩
  · decide +kernel
  · decide +kernel
  · decide +kernel
  · decide +kernel
  · decide +kernel

/-! ### the hypotheses can be met -/

example : ∃ out, resize30Neon true .preferSpeed (2 ^ 64) .ra30 .network demoLib .bilinear Demo.src30 Demo.dst30 = some (.ok (), out) := by
  obtain ⟨out, h, _⟩ := C193_no_oob true .preferSpeed .ra30 .network demoLib Demo.call30 Demo.safe30.bytes
  exact ⟨out, h⟩

example : (resize30Neon true .preferSpeed (2 ^ 64) .ar30 .host demoLib .bilinear ⟨[1, 2, 3, 4], 4, 1, 1, 4, 0⟩
    ⟨[9, 9, 9, 9, 9, 9, 9], 4, 1, 2, 4, 0⟩).map (·.2) = some [9, 9, 9, 9, 9, 9, 9] := by decide +kernel

example : ∃ out, resize30Neon true .preferQuality (2 ^ 64) .ar30 .network demoLib .bilinear Demo.rows5 Demo.low2 = some (.ok (), out) := by
  obtain ⟨_, out, _, _, _, h, _⟩ := C195_vertical (rdm := true) (s := .preferQuality) rfl .ar30 .network Demo.callV Demo.safeV rfl
  exact ⟨out, h⟩

example : ∃ out, resize30Neon false .preferSpeed (2 ^ 64) .ar30 .host demoLib .bilinear Demo.rows5 Demo.wide5 = some (.ok (), out) ∧
    pix30 (fmtLE .ar30 .host) out 64 4 5 3 = 3 := by
  obtain ⟨_, _, out, _, _, _, _, h, _, _, h2⟩ := C196_separable_partial (rdm := false) (s := .preferSpeed) rfl .ar30 .host
    Demo.call5 Demo.safe5 (by
      intro q hq x hx
      obtain ⟨fw, e, rfl⟩ := hq
      have : (tableOf demoLib .bilinear 8 16).map (fun f => decide (∀ x ∈ List.range 16, (f.bound x).size ≤ 4)) = some true := by
        decide +kernel
      have e' : tableOf demoLib .bilinear 8 16 = some fw := e
      rw [e'] at this
      simp only [Option.map_some, Option.some.injEq, decide_eq_true_eq] at this
      exact this x (List.mem_range.2 hx))
  exact ⟨out, h, h2 4 5 (by decide) (by decide)⟩

example : ∃ out, resize30Neon false .preferQuality (2 ^ 64) .ar30 .host demoLib .bilinear Demo.flat30 Demo.flatDst = some (.ok (), out) := by
  obtain ⟨_, out, _, h, _⟩ := C197_flat_rows (rdm := false) (s := .preferQuality) rfl .ar30 .host Demo.callF Demo.safeF rfl
    (fun y c => if c = 0 then 1023 - 100 * y else if c = 1 then 511 else y * 7) (by
      have : ∀ y < 4, ∀ x < 20, ∀ c < 3, pix30 (fmtLE .ar30 .host) Demo.flat30.buffer Demo.flat30.stride y x c =
        if c = 0 then 1023 - 100 * y else if c = 1 then 511 else y * 7 := by decide +kernel
      intro y x c hy hx hc
      exact this y hy x hx c hc)
  exact ⟨out, h⟩

example : ∃ out out', resize30Neon true .preferSpeed (2 ^ 64) .ra30 .host demoLib .bilinear Demo.src30 Demo.dst30 = some (.ok (), out) ∧
    resize30Neon true .preferSpeed (2 ^ 64) .ra30 .host demoLib .bilinear Demo.src30 Demo.dst30 = some (.ok (), out') := by
  obtain ⟨_, _, out, out', _, _, h, h', _⟩ := C198_locality (rdm := true) (s := .preferSpeed) .ra30 .host Demo.call30
    Demo.safe30.bytes Demo.call30 Demo.safe30.bytes ⟨rfl, rfl⟩ ⟨rfl, rfl⟩
  exact ⟨out, out', h, h'⟩

/-- White rows reduced with the bilinear filter meet the hypotheses of C199 and C200. -/
theorem Demo.callW : Call30 (2 ^ 64) .bilinear Demo.white30 Demo.whiteDst :=
  ⟨by decide +kernel, by decide, by decide, by decide, by simp, by decide, by decide⟩
theorem Demo.whiteFit : ∀ q, IsTable demoLib .bilinear Demo.white30.height Demo.whiteDst.height q → ∀ y, y < Demo.whiteDst.height →
    (q.bound y).size ≤ 32 ∧ 32768 ≤ ∑ k ∈ range (q.bound y).size, q.weight y k ∧
      1023 * (∑ k ∈ range (q.bound y).size, |q.weight y k|) + 512 * (q.bound y).size ≤ 32767 * 1024 := by
  intro q hq y hy
  obtain ⟨fw, e, rfl⟩ := hq
  have : (tableOf demoLib .bilinear 6 4).map (fun f => decide (∀ y ∈ List.range 4,
      let q := numericalApproximation F32.rnd f
      (q.bound y).size ≤ 32 ∧ 32768 ≤ ∑ k ∈ range (q.bound y).size, q.weight y k ∧
        1023 * (∑ k ∈ range (q.bound y).size, |q.weight y k|) + 512 * (q.bound y).size ≤ 32767 * 1024)) = some true := by
    decide +kernel
  have e' : tableOf demoLib .bilinear 6 4 = some fw := e
  rw [e'] at this
  simp only [Option.map_some, Option.some.injEq, decide_eq_true_eq] at this
  exact this y (List.mem_range.2 hy)

example : ∃ out, resize30Neon true .preferSpeed (2 ^ 64) .ar30 .host demoLib .bilinear Demo.white30 Demo.whiteDst = some (.ok (), out) ∧
    pix30 (fmtLE .ar30 .host) out Demo.whiteDst.stride 3 11 1 = 1023 := by
  obtain ⟨out, h1, h2⟩ := C200_white_partial (rdm := true) (s := .preferSpeed) rfl .ar30 .host Demo.callW (by decide +kernel) rfl
    Demo.whiteFit (by
      have : ∀ y < 6, ∀ x < 12, ∀ c < 3, pix30 (fmtLE .ar30 .host) Demo.white30.buffer 48 y x c = 1023 := by decide +kernel
      intro y x c hy hx hc
      exact this y hy x hx c hc)
  exact ⟨out, h1, h2 3 11 1 (by decide) (by decide) (by decide)⟩

example : ∃ out, resize30Neon true .preferSpeed (2 ^ 64) .ar30 .host demoLib .bilinear Demo.rows5 Demo.wide5 = some (.ok (), out) := by
  obtain ⟨_, out, _, _, h, _⟩ := C201_rows_partial (rdm := true) (s := .preferSpeed) rfl .ar30 .host Demo.call5 Demo.safe5.bytes rfl (by
    intro q hq x hx
    obtain ⟨fw, e, rfl⟩ := hq
    have : (tableOf demoLib .bilinear 8 16).map (fun f => decide (∀ x ∈ List.range 16,
        let q := numericalApproximation F32.rnd f
        (q.bound x).size ≤ 8 ∧
          1023 * (∑ k ∈ range (q.bound x).size, |q.weight x k|) + 1024 * (q.bound x).size + 8 * 2048 ≤ 32767 * 2048)) = some true := by
      decide +kernel
    have e' : tableOf demoLib .bilinear 8 16 = some fw := e
    rw [e'] at this
    simp only [Option.map_some, Option.some.injEq, decide_eq_true_eq] at this
    exact this x (List.mem_range.2 hx))
  exact ⟨out, h⟩

/-- Row 4 of five equal rows becomes what row 0 becomes. -/
example : ∃ out out', resize30Neon true .preferQuality (2 ^ 64) .ar30 .host demoLib .bilinear Demo.rows5 Demo.wide5 = some (.ok (), out) ∧
    resize30Neon true .preferQuality (2 ^ 64) .ar30 .host demoLib .bilinear Demo.rows4 Demo.wide4 = some (.ok (), out') ∧
    pix30 (fmtLE .ar30 .host) out 64 4 3 0 = pix30 (fmtLE .ar30 .host) out' 64 0 3 0 := by
  obtain ⟨out, out', h1, h2, h3⟩ := C202_equal_rows (rdm := true) (s := .preferQuality) (L := demoLib) rfl .ar30 .host
    Demo.call5 Demo.safe5.bytes Demo.call4 Demo.safe4.bytes rfl rfl ⟨rfl, rfl⟩
  refine ⟨out, out', h1, h2, h3 4 0 (by decide) (by decide) ?_ 3 0 (by decide) (by decide)⟩
  have : ∀ x < 8, ∀ c < 3, pix30 (fmtLE .ar30 .host) Demo.rows5.buffer 32 4 x c =
    pix30 (fmtLE .ar30 .host) Demo.rows4.buffer 32 0 x c := by decide +kernel
  intro x c hx hc
  exact this x hx c hc

example : ∃ out out', resize30Neon true .preferSpeed (2 ^ 64) .ar30 .host demoLib .bilinear Demo.rows5 Demo.wide5 = some (.ok (), out) ∧
    resize30Neon true .preferSpeed (2 ^ 64) .ar30 .host demoLib .bilinear Demo.rows4 Demo.wide4 = some (.ok (), out') ∧
    pix30 (fmtLE .ar30 .host) out 64 3 3 0 = pix30 (fmtLE .ar30 .host) out' 64 0 3 0 := by
  obtain ⟨out, out', h1, h2, h3⟩ := C203_equal_rows_partial (rdm := true) (s := .preferSpeed) (L := demoLib) .ar30 .host
    Demo.call5 Demo.safe5.bytes Demo.call4 Demo.safe4.bytes rfl rfl ⟨rfl, rfl⟩
  refine ⟨out, out', h1, h2, h3 3 0 (by decide) (by decide) (by decide) ?_ 3 0 (by decide) (by decide)⟩
  have : ∀ x < 8, ∀ c < 3, pix30 (fmtLE .ar30 .host) Demo.rows5.buffer 32 3 x c =
    pix30 (fmtLE .ar30 .host) Demo.rows4.buffer 32 0 x c := by decide +kernel
  intro x c hx hc
  exact this x hx c hc

end PicScale
