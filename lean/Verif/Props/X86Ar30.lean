import Verif.Lemmas.X86Ar30Pass
import Verif.Props.Ar30

/-!
Property theorems about packed 10-bit images on `x86_64`: C108 – C114.
-/

namespace PicScale

open Spec Finset

/-- A convolution resize of packed images that the library accepts. Nothing is assumed about the filter, the
pixels or the weights. -/
structure Call30 (W : ℕ) (r : ResamplingFunction) (src dst : Image ℕ) : Prop where
  checked : check30 W src dst = .ok ()
  filter : r ≠ .nearest
  sizes : src.width ≠ dst.width ∨ src.height ≠ dst.height
  small : src.width ≤ 2 ^ 23 ∧ src.height ≤ 2 ^ 23
  area : r = .area → dst.width ≤ 2 ^ 22 ∧ dst.height ≤ 2 ^ 22
  fits : src.width * dst.height * 4 < W
  strides : src.width = dst.width → src.stride = dst.stride

/-- Bytes, and no accumulator can reach `2^30`. -/
structure Safe30 (L : Lib) (r : ResamplingFunction) (src dst : Image ℕ) : Prop where
  bytes : ∀ v ∈ src.buffer, v < 256
  vertical : ∀ q, IsTable L r src.height dst.height q → NoOverflow30At q dst.height 1023
  horizontal : ∀ q, IsTable L r src.width dst.width q → NoOverflow30At q dst.width 1023

theorem weightsI16_of {L : Lib} {r : ResamplingFunction} {inn out : ℕ} {fw : FilterWeights ℚ}
    (h1 : 1 ≤ inn) (h2 : inn ≤ 2 ^ 23) (ha : r = .area → out ≤ 2 ^ 22) (e : tableOf L r inn out = some fw) :
    WeightsI16 (numericalApproximation F32.rnd fw) := by
  obtain ⟨fw', e', _, _, _, hr, _⟩ := C17_quantised L r inn out h1 h2 ha
  unfold tableOf at e
  rw [e'] at e
  obtain rfl := Option.some.inj e
  intro i k
  have := hr i k
  exact ⟨by omega, by omega⟩

/-! ### C108: every accepted call finishes -/

theorem horizontal30X86_total (cpu : Cpu) (t : Rgb30) (o : Ar30Order) {src dst : List ℕ}
    {ss ds H inn out : ℕ} {fw : FilterWeights ℚ}
    (hin : 0 < inn) (hout : 0 < out) (hs : src.length = H * ss) (hd : dst.length = H * ds)
    (hss : inn * 4 ≤ ss) (hds : out * 4 ≤ ds) (hT : ValidTable fw inn out) (hP : PlainShape fw out) :
    ∃ r, horizontal30X86 cpu t o src ss fw dst ds = some r ∧ r.length = dst.length ∧
      (∀ y p, y < H → out * 4 ≤ p → p < ds → r[y * ds + p]? = dst[y * ds + p]?) := by
  by_cases hc : cpu.sse41 = true
  · obtain ⟨r, a, b, _, d⟩ := horizontal30Sse_raw t o hc hin hout hs hd hss hds hT hP
    exact ⟨r, a, b, d⟩
  · obtain ⟨r, a, b, _, d⟩ := horizontal30_raw (fmtLE t o) hin hout hs hd hss hds hT hP
    refine ⟨r, ?_, b, d⟩
    unfold horizontal30X86
    rw [if_neg hc]
    exact a

theorem vertical30X86_total (cpu : Cpu) (t : Rgb30) (o : Ar30Order) {src dst : List ℕ}
    {ss ds width inn out : ℕ} {fw : FilterWeights ℚ}
    (hw0 : 0 < width) (hs : src.length = inn * ss) (hd : dst.length = out * ds)
    (hss : width * 4 ≤ ss) (hds : width * 4 ≤ ds) (hT : ValidTable fw inn out) (hP : PlainShape fw out) :
    ∃ r, vertical30X86 cpu t o src ss fw dst ds width = some r ∧ r.length = dst.length ∧
      (∀ y p, y < out → width * 4 ≤ p → p < ds → r[y * ds + p]? = dst[y * ds + p]?) := by
  by_cases hc : cpu.sse41 = true
  · obtain ⟨r, a, b, _, d⟩ := vertical30Sse_raw t o hc hw0 hs hd hss hds hT hP
    exact ⟨r, a, b, d⟩
  · obtain ⟨r, a, b, _, d⟩ := vertical30_raw (fmtLE t o) hw0 hs hd hss hds hT hP
    refine ⟨r, ?_, b, d⟩
    unfold vertical30X86
    rw [if_neg hc]
    exact a

/-- **C108.** On every `x86_64` processor, with or without SSE4.1, in both layouts and both byte orders, for every
accepted convolution resize of packed 10-bit images (any filter, any pixels, any sums): the call returns `Ok`,
every load and store of the vector code stays inside its slice, the destination keeps its length and its row
padding. (A purely vertical call must use equal strides, as on other machines: `C41_vertical_stride_violated`.) -/
theorem C108_no_oob (cpu : Cpu) (t : Rgb30) (o : Ar30Order) {W : ℕ} (L : Lib) {r : ResamplingFunction}
    {src dst : Image ℕ} (h : Call30 W r src dst) :
    ∃ out, resize30X86 cpu W t o L r src dst = some (.ok (), out) ∧ out.length = dst.buffer.length ∧
      (∀ y p, y < dst.height → dst.width * 4 ≤ p → p < dst.stride →
        out[y * dst.stride + p]? = dst.buffer[y * dst.stride + p]?) := by
  obtain ⟨c0, _, _, cs, cd⟩ := check30_ok.1 h.checked
  obtain ⟨vf, ev, Tv, Sv⟩ := table_exists L r (out := dst.height) c0.2.1 h.small.2 (fun ha => (h.area ha).2)
  obtain ⟨hf, eh, Th, Sh⟩ := table_exists L r (out := dst.width) c0.1 h.small.1 (fun ha => (h.area ha).1)
  have hst := h.strides
  unfold resize30X86
  rw [h.checked]
  simp only
  rw [if_neg (by have := h.sizes; tauto), if_neg h.filter]
  by_cases hw : src.width = dst.width
  · have hh : src.height ≠ dst.height := by have := h.sizes; tauto
    rw [if_pos ⟨hh, hw⟩]
    obtain ⟨out, o1, o2, o5⟩ := vertical30X86_total cpu t o (src := src.buffer) (dst := dst.buffer) (ss := src.stride)
      (ds := src.stride) (width := src.width) c0.1
      (by rw [cs.1, Nat.mul_comm]) (by rw [cd.1, Nat.mul_comm, hst hw]) cs.2 cs.2 Tv Sv
    refine ⟨out, ?_, o2, ?_⟩
    · simp only [ev, o1, Option.bind_eq_bind, Option.bind_some]
    · intro y p hy hp hps
      rw [← hst hw] at hps ⊢; exact o5 y p hy (by omega) hps
  · rw [if_neg (by tauto)]
    by_cases hh : src.height = dst.height
    · rw [if_neg (by omega)]
      obtain ⟨out, o1, o2, o5⟩ := horizontal30X86_total cpu t o (src := src.buffer) (dst := dst.buffer) (ss := src.stride)
        (ds := dst.stride) (H := dst.height) c0.1 c0.2.2.1
        (by rw [cs.1, Nat.mul_comm, hh]) (by rw [cd.1, Nat.mul_comm]) cs.2 cd.2 Th Sh
      refine ⟨out, ?_, o2, o5⟩
      simp only [eh, o1, Option.bind_eq_bind, Option.bind_some]
    · rw [if_pos hh, if_neg (by have := h.fits; omega)]
      obtain ⟨m, t1, t2, _⟩ := vertical30X86_total cpu t o (src := src.buffer)
        (dst := List.replicate (src.width * dst.height * 4) 0) (ss := src.stride)
        (ds := src.width * 4) (width := src.width) c0.1
        (by rw [cs.1, Nat.mul_comm]) (by rw [List.length_replicate]; ring) cs.2 (le_refl _) Tv Sv
      rw [List.length_replicate] at t2
      obtain ⟨out, o1, o2, o5⟩ := horizontal30X86_total cpu t o (src := m) (dst := dst.buffer) (ss := src.width * 4)
        (ds := dst.stride) (H := dst.height) c0.1 c0.2.2.1
        (by rw [t2]; ring) (by rw [cd.1, Nat.mul_comm]) (le_refl _) cd.2 Th Sh
      refine ⟨out, ?_, o2, o5⟩
      simp only [ev, eh, t1, o1, Option.bind_eq_bind, Option.bind_some]

/-! ### what is written -/

theorem rowSse30_congr {g : Bool} {c n : ℕ} {w : ℕ → ℤ} {p p' : ℕ → ℕ} (h : ∀ k, k < n → p k = p' k) :
    rowSse30 g c n w p = rowSse30 g c n w p' := by
  have e : wsum n w (fun k => ((p (tapPixel n k) : ℕ) : ℤ)) = wsum n w (fun k => ((p' (tapPixel n k) : ℕ) : ℤ)) :=
    wsum_congr (fun _ _ => rfl) fun k hk => by rw [h _ (tapPixel_lt hk)]
  unfold rowSse30 fixedDown fixedHalf
  rw [e]

theorem fixedDown_congr {hi n : ℕ} {w : ℕ → ℤ} {p p' : ℕ → ℕ} (h : ∀ k, k < n → p k = p' k) :
    fixedDown hi n w p = fixedDown hi n w p' := by
  unfold fixedDown
  congr 2
  exact wsum_congr (fun _ _ => rfl) fun k hk => by rw [h k hk]

/-- What a resize of packed images writes on a processor with SSE4.1. -/
theorem resize30Sse_exact {cpu : Cpu} (hcpu : cpu.sse41 = true) (t : Rgb30) (o : Ar30Order) {W : ℕ} {L : Lib}
    {r : ResamplingFunction} {src dst : Image ℕ} (h : Call30 W r src dst) (hs : Safe30 L r src dst) :
    ∃ qv qh out, IsTable L r src.height dst.height qv ∧ IsTable L r src.width dst.width qh ∧
      ValidTable qv src.height dst.height ∧ ValidTable qh src.width dst.width ∧
      resize30X86 cpu W t o L r src dst = some (.ok (), out) ∧ out.length = dst.buffer.length ∧
      (∀ y x c, y < dst.height → x < dst.width → c < 3 → pix30 (fmtLE t o) out dst.stride y x c =
        separable src.width src.height dst.width dst.height
          (fun i => (qv.bound i).start) (fun i p => fixedDown 1023 (qv.bound i).size (fun k => qv.weight i k) p)
          (fun i => (qh.bound i).start)
          (fun i p => rowSse30 (decide (y < 4 * (dst.height / 4))) c (qh.bound i).size (fun k => qh.weight i k) p)
          (fun y x => pix30 (fmtLE t o) src.buffer src.stride y x c) y x) ∧
      (∀ y x, y < dst.height → x < dst.width → pix30 (fmtLE t o) out dst.stride y x 3 = 3) := by
  obtain ⟨c0, _, _, cs, cd⟩ := check30_ok.1 h.checked
  obtain ⟨vf, ev, Tv, Sv⟩ := table_exists L r (out := dst.height) c0.2.1 h.small.2 (fun ha => (h.area ha).2)
  obtain ⟨hf, eh, Th, Sh⟩ := table_exists L r (out := dst.width) c0.1 h.small.1 (fun ha => (h.area ha).1)
  have Wv := weightsI16_of (out := dst.height) c0.2.1 h.small.2 (fun ha => (h.area ha).2) ev
  have Wh := weightsI16_of (out := dst.width) c0.1 h.small.1 (fun ha => (h.area ha).1) eh
  have Ov := hs.vertical _ ⟨vf, ev, rfl⟩
  have Oh := hs.horizontal _ ⟨hf, eh, rfl⟩
  have hst := h.strides
  refine ⟨numericalApproximation F32.rnd vf, numericalApproximation F32.rnd hf, ?_⟩
  unfold resize30X86
  rw [h.checked]
  simp only
  rw [if_neg (by have := h.sizes; tauto), if_neg h.filter]
  by_cases hw : src.width = dst.width
  · have hh : src.height ≠ dst.height := by have := h.sizes; tauto
    rw [if_pos ⟨hh, hw⟩]
    obtain ⟨out, o1, o2, o3, o4, _, o5⟩ := vertical30Sse_spec t o hcpu (src := src.buffer) (dst := dst.buffer) (ss := src.stride)
      (ds := src.stride) (width := src.width) c0.1
      (by rw [cs.1, Nat.mul_comm]) (by rw [cd.1, Nat.mul_comm, hst hw]) cs.2 cs.2 Tv Sv Ov Wv hs.bytes
    refine ⟨out, ⟨vf, ev, rfl⟩, ⟨hf, eh, rfl⟩, Sv.q_valid Tv, Sh.q_valid Th, ?_, o2, ?_, ?_⟩
    · simp only [ev, o1, Option.bind_eq_bind, Option.bind_some]
    · intro y x c hy hx hc
      rw [← hst hw, o3 y x c hy (by omega) hc]
      simp only [separable, if_pos hw, if_neg hh]
      rfl
    · intro y x hy hx
      rw [← hst hw]; exact o4 y x hy (by omega)
  · rw [if_neg (by tauto)]
    by_cases hh : src.height = dst.height
    · rw [if_neg (by omega)]
      obtain ⟨out, o1, o2, o3, o4, o5⟩ := horizontal30Sse_spec t o hcpu (src := src.buffer) (dst := dst.buffer) (ss := src.stride)
        (ds := dst.stride) (H := dst.height) c0.1 c0.2.2.1
        (by rw [cs.1, Nat.mul_comm, hh]) (by rw [cd.1, Nat.mul_comm]) cs.2 cd.2 Th Sh Oh Wh hs.bytes
      refine ⟨out, ⟨vf, ev, rfl⟩, ⟨hf, eh, rfl⟩, Sv.q_valid Tv, Sh.q_valid Th, ?_, o2, ?_, o4⟩
      · simp only [eh, o1, Option.bind_eq_bind, Option.bind_some]
      · intro y x c hy hx hc
        rw [o3 y x c hy hx hc]
        simp only [separable, if_neg hw, if_pos hh]
        rfl
    · rw [if_pos hh, if_neg (by have := h.fits; omega)]
      obtain ⟨m, t1, t2, t3, _, t4, _⟩ := vertical30Sse_spec t o hcpu (src := src.buffer)
        (dst := List.replicate (src.width * dst.height * 4) 0) (ss := src.stride)
        (ds := src.width * 4) (width := src.width) c0.1
        (by rw [cs.1, Nat.mul_comm]) (by rw [List.length_replicate]; ring) cs.2 (le_refl _) Tv Sv Ov Wv hs.bytes
      rw [List.length_replicate] at t2
      have tb : ∀ v ∈ m, v < 256 := by
        intro v hv
        obtain ⟨i, hi, rfl⟩ := List.getElem_of_mem hv
        have hpos : 0 < src.width * 4 := by omega
        have h1 := t4 (i / (src.width * 4)) (i % (src.width * 4))
          (by rw [Nat.div_lt_iff_lt_mul hpos, t2] at *; calc i < src.width * dst.height * 4 := by omega
                _ = dst.height * (src.width * 4) := by ring)
          (Nat.mod_lt _ hpos)
        rw [Nat.mul_comm, Nat.div_add_mod, List.getD_eq_getElem?_getD, List.getElem?_eq_getElem hi] at h1
        exact h1
      obtain ⟨out, o1, o2, o3, o4, o5⟩ := horizontal30Sse_spec t o hcpu (src := m) (dst := dst.buffer) (ss := src.width * 4)
        (ds := dst.stride) (H := dst.height) c0.1 c0.2.2.1
        (by rw [t2]; ring) (by rw [cd.1, Nat.mul_comm]) (le_refl _) cd.2 Th Sh Oh Wh tb
      refine ⟨out, ⟨vf, ev, rfl⟩, ⟨hf, eh, rfl⟩, Sv.q_valid Tv, Sh.q_valid Th, ?_, o2, ?_, o4⟩
      · simp only [ev, eh, t1, o1, Option.bind_eq_bind, Option.bind_some]
      · intro y x c hy hx hc
        rw [o3 y x c hy hx hc]
        simp only [separable, if_neg hw, if_neg hh]
        refine rowSse30_congr fun k hk => ?_
        have hin := Th.inside x hx
        rw [t3 y _ c hy (by omega) hc]
        rfl

/-- Without SSE4.1 the portable code runs. -/
theorem resize30X86_portable {cpu : Cpu} (hcpu : cpu.sse41 = false) (W : ℕ) (t : Rgb30) (o : Ar30Order) (L : Lib)
    (r : ResamplingFunction) (src dst : Image ℕ) :
    resize30X86 cpu W t o L r src dst = resize30 W (fmtLE t o) L r src dst := by
  have hn : ¬ cpu.sse41 = true := by rw [hcpu]; simp
  unfold resize30X86 resize30 horizontal30X86 vertical30X86
  simp only [if_neg hn]
  rfl

theorem Call30.portable {W : ℕ} {L : Lib} {r : ResamplingFunction} {src dst : Image ℕ} (h : Call30 W r src dst)
    (hs : Safe30 L r src dst) : Accepted30 W L r src dst :=
  ⟨h.checked, h.filter, h.sizes, h.small, h.area, h.fits, hs.bytes,
    fun q hq i hi => by have := hs.vertical q hq i hi; push_cast at *; omega,
    fun q hq i hi => by have := hs.horizontal q hq i hi; push_cast at *; omega⟩

theorem fixRound_int (v : ℤ) : fixRound v = (v + 2 ^ 14) / 2 ^ 15 := by
  unfold fixRound
  have e : ((v : ℚ) / 32768 + 1 / 2) = ((v + 2 ^ 14 : ℤ) : ℚ) / ((2 ^ 15 : ℕ) : ℚ) := by push_cast; ring
  rw [e, Rat.floor_intCast_div_natCast]
  norm_num

theorem down_round (v : ℤ) :
    (v % 2 ^ 15 ≠ 2 ^ 14 → clamp 1023 (fixDown v) = clamp 1023 (fixRound v)) ∧
    clamp 1023 (fixDown v) ≤ clamp 1023 (fixRound v) ∧ clamp 1023 (fixRound v) ≤ clamp 1023 (fixDown v) + 1 := by
  rw [fixRound_int]
  unfold clamp fixDown
  norm_num
  omega

/-! ### C109: vertical resizes -/

/-- **C109.** A resize of packed images that keeps the width, on a processor with SSE4.1: every component of every
pixel is the full fixed point sum over its window (all taps, in order), rounded to nearest with *halves rounded
down*, clamped; alpha is full. The portable code (a processor without SSE4.1) rounds halves up: the two results are
equal except at exact ties, where the vector result may be one less. -/
theorem C109_vertical {cpu cpu' : Cpu} (hcpu : cpu.sse41 = true) (hcpu' : cpu'.sse41 = false) (t : Rgb30) (o : Ar30Order)
    {W : ℕ} {L : Lib} {r : ResamplingFunction} {src dst : Image ℕ} (h : Call30 W r src dst) (hs : Safe30 L r src dst)
    (hw : src.width = dst.width) :
    ∃ q out ref, IsTable L r src.height dst.height q ∧ ValidTable q src.height dst.height ∧
      resize30X86 cpu W t o L r src dst = some (.ok (), out) ∧
      resize30X86 cpu' W t o L r src dst = some (.ok (), ref) ∧
      ∀ y x, y < dst.height → x < dst.width →
        pix30 (fmtLE t o) out dst.stride y x 3 = 3 ∧
        ∀ c, c < 3 →
          let v := wsum (q.bound y).size (fun k => q.weight y k)
            (fun k => (pix30 (fmtLE t o) src.buffer src.stride ((q.bound y).start + k) x c : ℤ))
          pix30 (fmtLE t o) out dst.stride y x c = clamp 1023 ((v + (2 ^ 14 - 1)) / 2 ^ 15) ∧
          pix30 (fmtLE t o) ref dst.stride y x c = clamp 1023 ((v + 2 ^ 14) / 2 ^ 15) ∧
          (v % 2 ^ 15 ≠ 2 ^ 14 → pix30 (fmtLE t o) out dst.stride y x c = pix30 (fmtLE t o) ref dst.stride y x c) ∧
          pix30 (fmtLE t o) out dst.stride y x c ≤ pix30 (fmtLE t o) ref dst.stride y x c ∧
          pix30 (fmtLE t o) ref dst.stride y x c ≤ pix30 (fmtLE t o) out dst.stride y x c + 1 := by
  have hh : src.height ≠ dst.height := by have := h.sizes; tauto
  obtain ⟨qv, qh, out, a1, _, a3, _, a5, _, a7, a8⟩ := resize30Sse_exact hcpu t o h hs
  obtain ⟨qv', qh', ref, b1, _, _, _, b5, _, b7, _⟩ := resize30_exact (fmtLE t o) (h.portable hs) h.strides
  obtain ⟨f1, e1, rfl⟩ := a1
  obtain ⟨f1', e1', rfl⟩ := b1
  rw [e1] at e1'
  obtain rfl := Option.some.inj e1'
  refine ⟨_, out, ref, ⟨f1, e1, rfl⟩, a3, a5, by rw [resize30X86_portable hcpu']; exact b5, fun y x hy hx => ⟨a8 y x hy hx, ?_⟩⟩
  intro c hc v
  have ea := a7 y x c hy hx hc
  have eb := b7 y x c hy hx hc
  simp only [separable, if_pos hw, if_neg hh] at ea eb
  have ea' : pix30 (fmtLE t o) out dst.stride y x c = clamp 1023 (fixDown v) := ea
  have eb' : pix30 (fmtLE t o) ref dst.stride y x c = clamp 1023 (fixRound v) := eb
  have d := down_round v
  refine ⟨ea', by rw [eb', fixRound_int], ?_⟩
  rw [ea', eb']
  exact d

/-! ### C110: horizontal and two-dimensional resizes -/

/-- **C110 (partial).** On a processor with SSE4.1 a resize of packed images is the separable resize of the three
components (halves rounded down in both passes), with full alpha, when the destination height is a multiple of four
and no window of the horizontal filter has more than four pixels. Missing: larger windows, where the vector code
pairs weights with the wrong pixels (`C110_violated`), and the last `height % 4` rows (C111). -/
theorem C110_separable_partial {cpu : Cpu} (hcpu : cpu.sse41 = true) (t : Rgb30) (o : Ar30Order) {W : ℕ} {L : Lib}
    {r : ResamplingFunction} {src dst : Image ℕ} (h : Call30 W r src dst) (hs : Safe30 L r src dst)
    (h4 : dst.height % 4 = 0)
    (hwin : ∀ q, IsTable L r src.width dst.width q → ∀ x, x < dst.width → (q.bound x).size ≤ 4) :
    ∃ qv qh out, IsTable L r src.height dst.height qv ∧ IsTable L r src.width dst.width qh ∧
      ValidTable qv src.height dst.height ∧ ValidTable qh src.width dst.width ∧
      resize30X86 cpu W t o L r src dst = some (.ok (), out) ∧ out.length = dst.buffer.length ∧
      (∀ y x c, y < dst.height → x < dst.width → c < 3 → pix30 (fmtLE t o) out dst.stride y x c =
        separable src.width src.height dst.width dst.height
          (fun i => (qv.bound i).start) (fun i p => fixedDown 1023 (qv.bound i).size (fun k => qv.weight i k) p)
          (fun i => (qh.bound i).start) (fun i p => fixedDown 1023 (qh.bound i).size (fun k => qh.weight i k) p)
          (fun y x => pix30 (fmtLE t o) src.buffer src.stride y x c) y x) ∧
      (∀ y x, y < dst.height → x < dst.width → pix30 (fmtLE t o) out dst.stride y x 3 = 3) := by
  obtain ⟨qv, qh, out, a1, a2, a3, a4, a5, a6, a7, a8⟩ := resize30Sse_exact hcpu t o h hs
  refine ⟨qv, qh, out, a1, a2, a3, a4, a5, a6, ?_, a8⟩
  intro y x c hy hx hc
  rw [a7 y x c hy hx hc]
  have hn := hwin qh a2 x hx
  have hg : decide (y < 4 * (dst.height / 4)) = true := decide_eq_true (by omega)
  have ht : ∀ k, tapPixel (qh.bound x).size k = k := by
    intro k
    unfold tapPixel
    rw [if_neg (by omega), if_neg (by omega)]
  have er : ∀ p, rowSse30 true c (qh.bound x).size (fun k => qh.weight x k) p =
      fixedDown 1023 (qh.bound x).size (fun k => qh.weight x k) p := by
    intro p
    unfold rowSse30
    rw [if_pos rfl]
    simp only [ht]
  unfold separable
  simp only [hg, er]

/-- Four equal rows of eight pixels. -/
def Demo.four30 : List ℕ := Demo.row30 ++ Demo.row30 ++ Demo.row30 ++ Demo.row30

/-- **C110 is false for larger windows**: four rows of eight pixels reduced to three. The middle window has five
pixels; the vector code uses pixels 0, 0, 2, 2, 4 of it instead of 0, 1, 2, 3, 4. Red comes out as 295 where the
portable code gives 344. -/
theorem C110_violated : ∃ (L : Lib) (src dst : Image ℕ) (out ref : List ℕ),
    check30 (2 ^ 64) src dst = .ok () ∧ src.height = dst.height ∧ dst.height % 4 = 0 ∧
    resize30X86 ⟨true, false⟩ (2 ^ 64) .ar30 .host L .bilinear src dst = some (.ok (), out) ∧
    resize30X86 ⟨false, false⟩ (2 ^ 64) .ar30 .host L .bilinear src dst = some (.ok (), ref) ∧
    pix30 (fmtLE .ar30 .host) ref dst.stride 0 1 0 = 344 ∧ pix30 (fmtLE .ar30 .host) out dst.stride 0 1 0 = 295 := by
  refine ⟨demoLib, ⟨Demo.four30, 4, 8, 4, 32, 0⟩, ⟨List.replicate 48 0, 4, 3, 4, 12, 0⟩,
    ((resize30X86 ⟨true, false⟩ (2 ^ 64) .ar30 .host demoLib .bilinear ⟨Demo.four30, 4, 8, 4, 32, 0⟩
      ⟨List.replicate 48 0, 4, 3, 4, 12, 0⟩).getD (.ok (), [])).2,
    ((resize30X86 ⟨false, false⟩ (2 ^ 64) .ar30 .host demoLib .bilinear ⟨Demo.four30, 4, 8, 4, 32, 0⟩
      ⟨List.replicate 48 0, 4, 3, 4, 12, 0⟩).getD (.ok (), [])).2, ?_, rfl, rfl, ?_, ?_, ?_, ?_⟩
  · decide +kernel
  · decide +kernel
  · decide +kernel
  · decide +kernel
  · decide +kernel

/-! ### C111: the last rows -/

/-- **C111, what happens.** Whenever the width changes, on every processor with SSE4.1, for every image and filter
(without overflow): in the last `height % 4` destination rows every pixel has green 0, and red and blue are computed
at half the scale (divided by `2^16` instead of `2^15`), hence at most 512. -/
theorem C111_last_rows {cpu : Cpu} (hcpu : cpu.sse41 = true) (t : Rgb30) (o : Ar30Order) {W : ℕ} {L : Lib}
    {r : ResamplingFunction} {src dst : Image ℕ} (h : Call30 W r src dst) (hs : Safe30 L r src dst)
    (hw : src.width ≠ dst.width) (hh : src.height = dst.height) :
    ∃ q out, IsTable L r src.width dst.width q ∧ resize30X86 cpu W t o L r src dst = some (.ok (), out) ∧
      ∀ y x, 4 * (dst.height / 4) ≤ y → y < dst.height → x < dst.width →
        pix30 (fmtLE t o) out dst.stride y x 1 = 0 ∧
        ∀ c, c = 0 ∨ c = 2 → pix30 (fmtLE t o) out dst.stride y x c =
          clamp 1023 ((wsum (q.bound x).size (fun k => q.weight x k) (fun k =>
            (pix30 (fmtLE t o) src.buffer src.stride y ((q.bound x).start + tapPixel (q.bound x).size k) c : ℤ)) +
              (2 ^ 15 - 1)) / 2 ^ 16) := by
  obtain ⟨qv, qh, out, _, a2, _, _, a5, _, a7, _⟩ := resize30Sse_exact hcpu t o h hs
  refine ⟨qh, out, a2, a5, fun y x hy1 hy hx => ?_⟩
  have hg : decide (y < 4 * (dst.height / 4)) = false := decide_eq_false (by omega)
  constructor
  · rw [a7 y x 1 hy hx (by omega)]
    simp only [separable, if_neg hw, hg]
    rfl
  · intro c hc
    rw [a7 y x c hy hx (by omega)]
    simp only [separable, if_neg hw, hg, if_pos hh]
    unfold rowSse30
    rw [if_neg (by simp), if_neg (by omega)]
    rfl

/-- The green component is lost also when both dimensions change. -/
theorem C111_green_lost {cpu : Cpu} (hcpu : cpu.sse41 = true) (t : Rgb30) (o : Ar30Order) {W : ℕ} {L : Lib}
    {r : ResamplingFunction} {src dst : Image ℕ} (h : Call30 W r src dst) (hs : Safe30 L r src dst)
    (hw : src.width ≠ dst.width) :
    ∃ out, resize30X86 cpu W t o L r src dst = some (.ok (), out) ∧
      ∀ y x, 4 * (dst.height / 4) ≤ y → y < dst.height → x < dst.width →
        pix30 (fmtLE t o) out dst.stride y x 1 = 0 := by
  obtain ⟨qv, qh, out, _, a2, _, _, a5, _, a7, _⟩ := resize30Sse_exact hcpu t o h hs
  refine ⟨out, a5, fun y x hy1 hy hx => ?_⟩
  have hg : decide (y < 4 * (dst.height / 4)) = false := decide_eq_false (by omega)
  rw [a7 y x 1 hy hx (by omega)]
  simp only [separable, if_neg hw, hg]
  rfl

/-- **C111 is false**: five equal rows reduced in width do not give five equal rows. The last one has lost its green
and half of its red. -/
theorem C111_violated : ∃ (L : Lib) (src dst : Image ℕ) (out : List ℕ),
    check30 (2 ^ 64) src dst = .ok () ∧ src.height = dst.height ∧
    (∀ i, i < 32 → src.buffer[i]? = src.buffer[32 * 4 + i]?) ∧
    resize30X86 ⟨true, false⟩ (2 ^ 64) .ar30 .host L .bilinear src dst = some (.ok (), out) ∧
    pix30 (fmtLE .ar30 .host) out dst.stride 0 2 0 = 589 ∧ pix30 (fmtLE .ar30 .host) out dst.stride 4 2 0 = 295 ∧
    pix30 (fmtLE .ar30 .host) out dst.stride 0 2 1 = 295 ∧ pix30 (fmtLE .ar30 .host) out dst.stride 4 2 1 = 0 := by
  refine ⟨demoLib, ⟨Demo.four30 ++ Demo.row30, 4, 8, 5, 32, 0⟩, ⟨List.replicate 60 0, 4, 3, 5, 12, 0⟩,
    ((resize30X86 ⟨true, false⟩ (2 ^ 64) .ar30 .host demoLib .bilinear ⟨Demo.four30 ++ Demo.row30, 4, 8, 5, 32, 0⟩
      ⟨List.replicate 60 0, 4, 3, 5, 12, 0⟩).getD (.ok (), [])).2, ?_, rfl, ?_, ?_, ?_, ?_, ?_, ?_⟩
  · decide +kernel
  · decide +kernel
  · decide +kernel
  · decide +kernel
  · decide +kernel
  · decide +kernel
  · decide +kernel

/-! ### C112: rows of one colour -/

/-- **C112.** In rows handled in groups of four, a source whose rows are of one colour each is scaled horizontally to
the right brightness, for windows of every size: each component is the source component times the sum of the weights,
rounded with halves down, within one of what the portable code computes from the same table. (The exchange of taps of
C110 cannot be seen in such images.) -/
theorem C112_flat_rows {cpu : Cpu} (hcpu : cpu.sse41 = true) (t : Rgb30) (o : Ar30Order) {W : ℕ} {L : Lib}
    {r : ResamplingFunction} {src dst : Image ℕ} (h : Call30 W r src dst) (hs : Safe30 L r src dst)
    (hh : src.height = dst.height)
    (colour : ℕ → ℕ → ℕ) (hflat : ∀ y x c, y < src.height → x < src.width → c < 3 →
      pix30 (fmtLE t o) src.buffer src.stride y x c = colour y c) :
    ∃ q out, IsTable L r src.width dst.width q ∧ resize30X86 cpu W t o L r src dst = some (.ok (), out) ∧
      ∀ y x c, y < 4 * (dst.height / 4) → x < dst.width → c < 3 →
        let v := (∑ k ∈ range (q.bound x).size, q.weight x k) * (colour y c : ℤ)
        pix30 (fmtLE t o) out dst.stride y x c = clamp 1023 ((v + (2 ^ 14 - 1)) / 2 ^ 15) ∧
        pix30 (fmtLE t o) out dst.stride y x c ≤
          fixedRound 1023 (q.bound x).size (fun k => q.weight x k) (fun _ => colour y c) ∧
        fixedRound 1023 (q.bound x).size (fun k => q.weight x k) (fun _ => colour y c) ≤
          pix30 (fmtLE t o) out dst.stride y x c + 1 := by
  have hw : src.width ≠ dst.width := by have := h.sizes; tauto
  obtain ⟨qv, qh, out, _, a2, _, a4, a5, _, a7, _⟩ := resize30Sse_exact hcpu t o h hs
  refine ⟨qh, out, a2, a5, fun y x c hy hx hc => ?_⟩
  intro v
  have hg : decide (y < 4 * (dst.height / 4)) = true := decide_eq_true hy
  have hyy : y < dst.height := by omega
  have e := a7 y x c hyy hx hc
  simp only [separable, if_neg hw, hg, if_pos hh] at e
  have hsum : wsum (qh.bound x).size (fun k => qh.weight x k) (fun _ => (colour y c : ℤ)) = v := by
    unfold wsum
    rw [← sum_mul]
  have e2 : pix30 (fmtLE t o) out dst.stride y x c = clamp 1023 (fixDown v) := by
    rw [e]
    unfold rowSse30
    rw [if_pos rfl]
    unfold fixedDown
    rw [← hsum]
    congr 2
    apply wsum_congr (fun _ _ => rfl)
    intro k hk
    have := a4.inside x hx
    have := tapPixel_lt hk
    dsimp only
    rw [hflat y _ c (by omega) (by omega) hc]
  have d := down_round v
  have er : fixedRound 1023 (qh.bound x).size (fun k => qh.weight x k) (fun _ => colour y c) = clamp 1023 (fixRound v) := by
    unfold fixedRound
    rw [hsum]
  refine ⟨e2, ?_⟩
  rw [e2, er]
  exact d.2

/-! ### C113: errors -/

/-- **C113.** On every `x86_64` processor `resize_ar30` returns `Ok` exactly for images of non-zero representable
size whose buffers have `stride * height` bytes with rows that hold the pixels; in every other case it returns an
error of the documented kind and does not touch the destination. -/
theorem C113_errors {cpu : Cpu} {W : ℕ} {t : Rgb30} {o : Ar30Order} {L : Lib} {r : ResamplingFunction} {src dst : Image ℕ}
    {res : Except Err Unit} {out : List ℕ} (h : resize30X86 cpu W t o L r src dst = some (res, out)) :
    let nonZero := 0 < src.width ∧ 0 < src.height ∧ 0 < dst.width ∧ 0 < dst.height
    let srcFits := src.width * src.height * 4 < W
    let dstFits := dst.width * dst.height * 4 < W
    (res = .ok () ↔ nonZero ∧ srcFits ∧ dstFits ∧ LayoutOK 4 src ∧ LayoutOK 4 dst) ∧
    (∀ e, res = .error e → out = dst.buffer) ∧
    (¬ nonZero → res = .error .zeroImageDimensions) ∧
    (nonZero → ¬ srcFits → res = .error .sourceImageIsTooLarge) ∧
    (nonZero → srcFits → ¬ dstFits → res = .error .destinationImageIsTooLarge) ∧
    (nonZero → srcFits → dstFits → ¬ (LayoutOK 4 src ∧ LayoutOK 4 dst) →
      ∃ e, res = .error e ∧ (e.code = 4 ∨ e.code = 5)) := by
  intro nonZero srcFits dstFits
  have key : check30 W src dst = res ∧ (∀ e, res = .error e → out = dst.buffer) := by
    unfold resize30X86 at h
    cases hc : check30 W src dst with
    | error e =>
      rw [hc] at h
      simp only [Option.some.injEq, Prod.mk.injEq] at h
      exact ⟨h.1, fun _ _ => h.2.symm⟩
    | ok u =>
      rw [hc] at h
      have : res = .ok () := by
        simp only [Option.bind_eq_bind] at h
        split_ifs at h
        · simp at h; exact h.1.symm
        · obtain ⟨d, _, h⟩ := Option.bind_eq_some_iff.1 h
          simp at h; exact h.1.symm
        · obtain ⟨d, _, h⟩ := Option.bind_eq_some_iff.1 h
          obtain ⟨d, _, h⟩ := Option.bind_eq_some_iff.1 h
          simp at h; exact h.1.symm
        · obtain ⟨d, _, h⟩ := Option.bind_eq_some_iff.1 h
          obtain ⟨d, _, h⟩ := Option.bind_eq_some_iff.1 h
          obtain ⟨d, _, h⟩ := Option.bind_eq_some_iff.1 h
          obtain ⟨d, _, h⟩ := Option.bind_eq_some_iff.1 h
          simp at h; exact h.1.symm
        · obtain ⟨d, _, h⟩ := Option.bind_eq_some_iff.1 h
          obtain ⟨d, _, h⟩ := Option.bind_eq_some_iff.1 h
          simp at h; exact h.1.symm
      rw [this]
      exact ⟨rfl, by simp⟩
  obtain ⟨hres, hout⟩ := key
  subst hres
  refine ⟨check30_ok, hout, ?_, ?_, ?_, ?_⟩
  all_goals
    unfold check30
    simp only [bind, Except.bind, pure, Except.pure, throw, throwThe, MonadExceptOf.throw]
  · intro h0
    rw [if_pos (by simp only [nonZero] at h0; omega)]
  all_goals
    intro h0
    rw [if_neg (by simp only [nonZero] at h0; omega)]
    have hs : checkImageSizeOverflow W src.width src.height 4 = true ↔ W ≤ src.width * src.height * 4 :=
      C05_size_check h0.2.1
    have hd : checkImageSizeOverflow W dst.width dst.height 4 = true ↔ W ≤ dst.width * dst.height * 4 :=
      C05_size_check h0.2.2.2
    simp only [hs, hd]
  · intro h1
    rw [if_pos (by simp only [srcFits] at h1; omega)]
  · intro h1 h2
    rw [if_neg (by simp only [srcFits] at h1; omega), if_pos (by simp only [dstFits] at h2; omega)]
  · intro h1 h2 h3
    rw [if_neg (by simp only [srcFits] at h1; omega), if_neg (by simp only [dstFits] at h2; omega)]
    unfold LayoutOK at h3
    split_ifs
    · exact ⟨_, rfl, Or.inl rfl⟩
    · exact ⟨_, rfl, Or.inr rfl⟩
    · exact ⟨_, rfl, Or.inl rfl⟩
    · exact ⟨_, rfl, Or.inr rfl⟩
    · omega


/-! ### C114: locality -/

/-- **C114.** On a processor with SSE4.1 a destination pixel depends on the source pixels of its window only: two
pictures (stored with any strides and padding) that agree, in the component, on the rows of the vertical window and
the columns of the horizontal window of a destination pixel give that pixel the same value. In particular the
misplaced taps of C110 never reach outside the window. -/
theorem C114_locality {cpu : Cpu} (hcpu : cpu.sse41 = true) (t : Rgb30) (o : Ar30Order) {W : ℕ} {L : Lib}
    {r : ResamplingFunction} {src dst src' dst' : Image ℕ} (h : Call30 W r src dst) (hs : Safe30 L r src dst)
    (h' : Call30 W r src' dst') (hs' : Safe30 L r src' dst')
    (hsz : src.width = src'.width ∧ src.height = src'.height) (hdz : dst.width = dst'.width ∧ dst.height = dst'.height) :
    ∃ qv qh out out', IsTable L r src.height dst.height qv ∧ IsTable L r src.width dst.width qh ∧
      resize30X86 cpu W t o L r src dst = some (.ok (), out) ∧ resize30X86 cpu W t o L r src' dst' = some (.ok (), out') ∧
      ∀ y x c, y < dst.height → x < dst.width → c < 3 →
        (∀ y' x',
          (if src.height = dst.height then y' = y
            else (qv.bound y).start ≤ y' ∧ y' < (qv.bound y).start + (qv.bound y).size) →
          (if src.width = dst.width then x' = x
            else (qh.bound x).start ≤ x' ∧ x' < (qh.bound x).start + (qh.bound x).size) →
          pix30 (fmtLE t o) src.buffer src.stride y' x' c = pix30 (fmtLE t o) src'.buffer src'.stride y' x' c) →
        pix30 (fmtLE t o) out dst.stride y x c = pix30 (fmtLE t o) out' dst'.stride y x c := by
  obtain ⟨qv, qh, out, a1, a2, a3, a4, a5, _, a7, _⟩ := resize30Sse_exact hcpu t o h hs
  obtain ⟨qv', qh', out', b1, b2, _, _, b5, _, b7, _⟩ := resize30Sse_exact hcpu t o h' hs'
  rw [← hsz.1, ← hdz.1] at b2
  rw [← hsz.2, ← hdz.2] at b1
  obtain ⟨fv, e1, rfl⟩ := a1
  obtain ⟨fv', e1', rfl⟩ := b1
  obtain ⟨fh, e2, rfl⟩ := a2
  obtain ⟨fh', e2', rfl⟩ := b2
  rw [e1] at e1'
  rw [e2] at e2'
  obtain rfl := Option.some.inj e1'
  obtain rfl := Option.some.inj e2'
  refine ⟨_, _, out, out', ⟨fv, e1, rfl⟩, ⟨fh, e2, rfl⟩, a5, b5, fun y x c hy hx hc hp => ?_⟩
  rw [a7 y x c hy hx hc, b7 y x c (by omega) (by omega) hc, ← hsz.1, ← hsz.2, ← hdz.1, ← hdz.2]
  unfold separable
  simp only
  by_cases hw : src.width = dst.width
  · simp only [if_pos hw] at hp ⊢
    by_cases hh : src.height = dst.height
    · simp only [if_pos hh] at hp ⊢
      exact hp y x rfl rfl
    · simp only [if_neg hh] at hp ⊢
      exact fixedDown_congr fun k hk => hp _ x ⟨by omega, by omega⟩ rfl
  · simp only [if_neg hw] at hp ⊢
    refine rowSse30_congr fun k hk => ?_
    by_cases hh : src.height = dst.height
    · simp only [if_pos hh] at hp ⊢
      exact hp y _ rfl ⟨by omega, by omega⟩
    · simp only [if_neg hh] at hp ⊢
      exact fixedDown_congr fun k' hk' => hp _ _ ⟨by omega, by omega⟩ ⟨by omega, by omega⟩

/-! ### the hypotheses can be met -/

theorem noOverflow30At_of_taps {L : Lib} {r : ResamplingFunction} {inn out : ℕ} {q : FilterWeights ℤ}
    (h1 : 1 ≤ inn) (h2 : inn ≤ 2 ^ 23) (ha : r = .area → out ≤ 2 ^ 22) (hq : IsTable L r inn out q)
    (ht : q.kernelSize ≤ 31) : NoOverflow30At q out 1023 := by
  obtain ⟨fw, e, rfl⟩ := hq
  obtain ⟨fw', e', v, _, _, hr, _⟩ := C17_quantised L r inn out h1 h2 ha
  unfold tableOf at e
  rw [e'] at e
  obtain rfl := Option.some.inj e
  intro i hi
  have hle : ((numericalApproximation F32.rnd fw').bound i).size ≤ 31 := le_trans (v.size_le i hi) ht
  have hs : ∑ k ∈ range ((numericalApproximation F32.rnd fw').bound i).size, |(numericalApproximation F32.rnd fw').weight i k| ≤
      ∑ _k ∈ range ((numericalApproximation F32.rnd fw').bound i).size, (32768 : ℤ) := by
    refine sum_le_sum fun k _ => ?_
    have := hr i k
    exact abs_le.2 ⟨by omega, by omega⟩
  rw [sum_const, card_range, nsmul_eq_mul] at hs
  have : ((((numericalApproximation F32.rnd fw').bound i).size : ℕ) : ℤ) ≤ 31 := by exact_mod_cast hle
  push_cast
  linarith

theorem safe30_of {L : Lib} {W : ℕ} {r : ResamplingFunction} {src dst : Image ℕ} (h : Call30 W r src dst)
    (hb : ∀ v ∈ src.buffer, v < 256)
    (hv : (tableOf L r src.height dst.height).map (fun f => decide (f.kernelSize ≤ 31)) = some true)
    (hh : (tableOf L r src.width dst.width).map (fun f => decide (f.kernelSize ≤ 31)) = some true) : Safe30 L r src dst := by
  obtain ⟨c0, _⟩ := check30_ok.1 h.checked
  refine ⟨hb, fun q hq => ?_, fun q hq => ?_⟩
  · refine noOverflow30At_of_taps c0.2.1 h.small.2 (fun ha => (h.area ha).2) hq ?_
    obtain ⟨fw, e, rfl⟩ := hq
    rw [e] at hv
    show fw.kernelSize ≤ 31
    simpa using hv
  · refine noOverflow30At_of_taps c0.1 h.small.1 (fun ha => (h.area ha).1) hq ?_
    obtain ⟨fw, e, rfl⟩ := hq
    rw [e] at hh
    show fw.kernelSize ≤ 31
    simpa using hh

/-- Both dimensions change; padded rows. -/
theorem Demo.call30 : Call30 (2 ^ 64) .bilinear Demo.src30 Demo.dst30 :=
  ⟨by decide +kernel, by decide, by decide, by decide, by simp, by decide, by decide⟩
theorem Demo.safe30 : Safe30 demoLib .bilinear Demo.src30 Demo.dst30 :=
  safe30_of Demo.call30 (by decide +kernel) (by decide +kernel) (by decide +kernel)

/-- Five rows; the width is doubled, so windows are small. -/
def Demo.rows5 : Image ℕ := ⟨Demo.four30 ++ Demo.row30, 4, 8, 5, 32, 0⟩
def Demo.wide5 : Image ℕ := ⟨List.replicate 320 9, 4, 16, 5, 64, 0⟩
theorem Demo.call5 : Call30 (2 ^ 64) .bilinear Demo.rows5 Demo.wide5 :=
  ⟨by decide +kernel, by decide, by decide, by decide, by simp, by decide, by decide⟩
theorem Demo.safe5 : Safe30 demoLib .bilinear Demo.rows5 Demo.wide5 :=
  safe30_of Demo.call5 (by decide +kernel) (by decide +kernel) (by decide +kernel)

/-- Only the height changes. -/
def Demo.low2 : Image ℕ := ⟨List.replicate 64 9, 4, 8, 2, 32, 0⟩
theorem Demo.callV : Call30 (2 ^ 64) .bilinear Demo.rows5 Demo.low2 :=
  ⟨by decide +kernel, by decide, by decide, by decide, by simp, by decide, by decide⟩
theorem Demo.safeV : Safe30 demoLib .bilinear Demo.rows5 Demo.low2 :=
  safe30_of Demo.callV (by decide +kernel) (by decide +kernel) (by decide +kernel)

/-- Four rows, width doubled. -/
def Demo.rows4 : Image ℕ := ⟨Demo.four30, 4, 8, 4, 32, 0⟩
def Demo.wide4 : Image ℕ := ⟨List.replicate 256 9, 4, 16, 4, 64, 0⟩
theorem Demo.call4 : Call30 (2 ^ 64) .bilinear Demo.rows4 Demo.wide4 :=
  ⟨by decide +kernel, by decide, by decide, by decide, by simp, by decide, by decide⟩
theorem Demo.safe4 : Safe30 demoLib .bilinear Demo.rows4 Demo.wide4 :=
  safe30_of Demo.call4 (by decide +kernel) (by decide +kernel) (by decide +kernel)

example : ∃ out, resize30X86 ⟨true, true⟩ (2 ^ 64) .ra30 .network demoLib .bilinear Demo.src30 Demo.dst30 = some (.ok (), out) := by
  obtain ⟨out, h, _⟩ := C108_no_oob ⟨true, true⟩ .ra30 .network demoLib Demo.call30
  exact ⟨out, h⟩

example : ∃ out, resize30X86 ⟨true, false⟩ (2 ^ 64) .ar30 .network demoLib .bilinear Demo.rows5 Demo.low2 = some (.ok (), out) := by
  obtain ⟨_, out, _, _, _, h, _⟩ := C109_vertical (cpu := ⟨true, false⟩) (cpu' := ⟨false, false⟩) rfl rfl .ar30 .network
    Demo.callV Demo.safeV rfl
  exact ⟨out, h⟩

example : ∃ out, resize30X86 ⟨true, false⟩ (2 ^ 64) .ar30 .host demoLib .bilinear Demo.rows4 Demo.wide4 = some (.ok (), out) ∧
    pix30 (fmtLE .ar30 .host) out 64 2 5 3 = 3 := by
  obtain ⟨_, _, out, _, _, _, _, h, _, _, h2⟩ := C110_separable_partial (cpu := ⟨true, false⟩) rfl .ar30 .host
    Demo.call4 Demo.safe4 (by decide) (by
      intro q hq x hx
      obtain ⟨fw, e, rfl⟩ := hq
      have : (tableOf demoLib .bilinear 8 16).map (fun f => decide (∀ x ∈ List.range 16, (f.bound x).size ≤ 4)) = some true := by
        decide +kernel
      have e' : tableOf demoLib .bilinear 8 16 = some fw := e
      rw [e'] at this
      simp only [Option.map_some, Option.some.injEq, decide_eq_true_eq] at this
      exact this x (List.mem_range.2 hx))
  exact ⟨out, h, h2 2 5 (by decide) (by decide)⟩

/-- Row 4 of 5 has no green. -/
example : ∃ out, resize30X86 ⟨true, true⟩ (2 ^ 64) .ra30 .host demoLib .bilinear Demo.rows5 Demo.wide5 = some (.ok (), out) ∧
    pix30 (fmtLE .ra30 .host) out 64 4 7 1 = 0 := by
  obtain ⟨_, out, _, h, h2⟩ := C111_last_rows (cpu := ⟨true, true⟩) rfl .ra30 .host Demo.call5 Demo.safe5 (by decide) rfl
  exact ⟨out, h, (h2 4 7 (by decide) (by decide) (by decide)).1⟩

example : ∃ out, resize30X86 ⟨true, true⟩ (2 ^ 64) .ra30 .host demoLib .bilinear Demo.rows5 Demo.wide5 = some (.ok (), out) := by
  obtain ⟨out, h, _⟩ := C111_green_lost (cpu := ⟨true, true⟩) rfl .ra30 .host Demo.call5 Demo.safe5 (by decide)
  exact ⟨out, h⟩

/-- A white row over a grey row, reduced from 20 pixels to 2: windows of more than eight pixels. -/
def Demo.flat30 : Image ℕ := ⟨(List.range 4).flatMap fun y => (List.range 20).flatMap fun _ =>
  toNeBytes .little (pack30 .little .ar30 .host (1023 - 100 * y) 511 (y * 7)), 4, 20, 4, 80, 0⟩
def Demo.flatDst : Image ℕ := ⟨List.replicate 32 9, 4, 2, 4, 8, 0⟩
theorem Demo.callF : Call30 (2 ^ 64) .bilinear Demo.flat30 Demo.flatDst :=
  ⟨by decide +kernel, by decide, by decide, by decide, by simp, by decide, by decide⟩
theorem Demo.safeF : Safe30 demoLib .bilinear Demo.flat30 Demo.flatDst :=
  safe30_of Demo.callF (by decide +kernel) (by decide +kernel) (by decide +kernel)
example : ∃ out, resize30X86 ⟨true, true⟩ (2 ^ 64) .ar30 .host demoLib .bilinear Demo.flat30 Demo.flatDst = some (.ok (), out) := by
  obtain ⟨_, out, _, h, _⟩ := C112_flat_rows (cpu := ⟨true, true⟩) rfl .ar30 .host Demo.callF Demo.safeF rfl
    (fun y c => if c = 0 then 1023 - 100 * y else if c = 1 then 511 else y * 7) (by
      have : ∀ y < 4, ∀ x < 20, ∀ c < 3, pix30 (fmtLE .ar30 .host) Demo.flat30.buffer Demo.flat30.stride y x c =
        if c = 0 then 1023 - 100 * y else if c = 1 then 511 else y * 7 := by decide +kernel
      intro y x c hy hx hc
      exact this y hy x hx c hc)
  exact ⟨out, h⟩

example : (resize30X86 ⟨true, true⟩ (2 ^ 64) .ar30 .host demoLib .bilinear ⟨[1, 2, 3, 4], 4, 1, 1, 4, 0⟩
    ⟨[9, 9, 9, 9, 9, 9, 9], 4, 1, 2, 4, 0⟩).map (·.2) = some [9, 9, 9, 9, 9, 9, 9] := by decide +kernel

example : ∃ out out', resize30X86 ⟨true, true⟩ (2 ^ 64) .ra30 .host demoLib .bilinear Demo.src30 Demo.dst30 = some (.ok (), out) ∧
    resize30X86 ⟨true, true⟩ (2 ^ 64) .ra30 .host demoLib .bilinear Demo.src30 Demo.dst30 = some (.ok (), out') := by
  obtain ⟨_, _, out, out', _, _, h, h', _⟩ := C114_locality (cpu := ⟨true, true⟩) rfl .ra30 .host Demo.call30 Demo.safe30
    Demo.call30 Demo.safe30 ⟨rfl, rfl⟩ ⟨rfl, rfl⟩
  exact ⟨out, out', h, h'⟩

end PicScale
