import Verif.Props.Ringing
import Verif.Lemmas.RingingSums

/-!
Property theorems C265 – C266: the weights of the cubic filters add up to one, and 8-bit pictures of one value.
-/

namespace PicScale

open Finset F32 Spec

theorem cubics_not_area {L : Lib} {r : ResamplingFunction} (hr : Cubics L r) : r ≠ .area := by
  rintro rfl
  rcases hr with hr | ⟨hr, _⟩ <;> revert hr <;> decide

theorem cubics_resizable {L : Lib} {r : ResamplingFunction} (hr : Cubics L r) :
    (filterOf F32.rnd L r).isResizable = true := by
  have : r ∈ [ResamplingFunction.cubic, .mitchellNetravalli, .catmullRom, .hermite, .bSpline, .bicubic, .robidoux, .robidouxSharp] := by
    simp only [Cubics, cubics, List.mem_cons, List.not_mem_nil, or_false] at hr ⊢
    tauto
  simp only [List.mem_cons, List.not_mem_nil, or_false] at this
  rcases this with rfl | rfl | rfl | rfl | rfl | rfl | rfl | rfl <;> rfl

/-- The table of a cubic filter. -/
theorem cubics_table {L : Lib} {r : ResamplingFunction} (hr : Cubics L r) {inn out : ℕ} (h1 : 1 ≤ inn) (h2 : inn ≤ 2 ^ 15) :
    ∃ fw ks, generateWeights F32.rnd (filterOf F32.rnd L r) inn out = some fw ∧ ValidTable fw inn out ∧
      TableIs fw ks out (genRow F32.rnd (filterOf F32.rnd L r) inn out) (genBound F32.rnd (filterOf F32.rnd L r) inn out) := by
  obtain ⟨fw, e, v, t⟩ := generateWeights_spec RoundOK.rnd (filterOf_ok L r) (out := out) h1 (by omega)
    (fun hA => absurd (filterOf_area L r hA) (cubics_not_area hr))
  rcases t with ⟨_, t⟩ | ⟨⟨hA, _⟩, _⟩
  · exact ⟨fw, _, e, v, t⟩
  · exact absurd (filterOf_area L r hA) (cubics_not_area hr)

/-- **C265.** In binary32 arithmetic, for every cubic filter and every pair of sizes, up to 32768 source pixels, the
weights of a destination coordinate with `n` taps add up to one up to `(5 n + 7) 2^-24`. -/
theorem C265_normalised {L : Lib} {r : ResamplingFunction} (hr : Cubics L r) (inn out : ℕ)
    (h1 : 1 ≤ inn) (h2 : inn ≤ 2 ^ 15) :
    ∃ fw, generateWeights F32.rnd (filterOf F32.rnd L r) inn out = some fw ∧
      ∀ i, i < out → |∑ k ∈ range (fw.bound i).size, fw.weight i k - 1| ≤ (5 * (fw.bound i).size + 7) / 2 ^ 24 := by
  obtain ⟨fw, ks, e, v, t⟩ := cubics_table hr (out := out) h1 h2
  refine ⟨fw, e, fun i hi => ?_⟩
  have hf := cubics_ringing hr
  have hin := v.inside i hi
  have hpos := v.size_pos i hi
  rw [t.row_sum hi]
  rw [t.bound hi] at hin hpos ⊢
  have hsz : wEnd F32.rnd (filterOf F32.rnd L r) inn out i ≤ inn := by
    have a1 : wStart F32.rnd (filterOf F32.rnd L r) inn out i +
      (wEnd F32.rnd (filterOf F32.rnd L r) inn out i - wStart F32.rnd (filterOf F32.rnd L r) inn out i) ≤ inn := hin
    omega
  obtain ⟨m1, m2, m3, m4⟩ := ringing_mass hf h1 h2 (by omega) i hsz
  have hlen := rawRow_length (ρ := F32.rnd) (filterOf F32.rnd L r) inn out i
  have hl : (rawRow F32.rnd (filterOf F32.rnd L r) inn out i).length ≤ 2 ^ 15 := by rw [hlen]; omega
  have := signed_norm_sum m3 hl m1 m2 m4
  rw [hlen] at this
  unfold genRow
  rw [show preRow F32.rnd (filterOf F32.rnd L r) (rawRow F32.rnd (filterOf F32.rnd L r) inn out i) =
      (rawRow F32.rnd (filterOf F32.rnd L r) inn out i, sumF F32.rnd (rawRow F32.rnd (filterOf F32.rnd L r) inn out i))
    by unfold preRow; rw [hf.ewa]]
  exact this

/-- Example: Mitchell-Netravali, 9 → 4 pixels: a negative weight, and a sum that is not exactly one. -/
example : ∃ fw, generateWeights F32.rnd (filterOf F32.rnd demoLib .mitchellNetravalli) 9 4 = some fw ∧
    ∑ k ∈ range (fw.bound 1).size, fw.weight 1 k ≠ 1 ∧ fw.weight 1 0 < 0 := by
  have : (generateWeights F32.rnd (filterOf F32.rnd demoLib .mitchellNetravalli) 9 4).map
      (fun fw => decide (∑ k ∈ range (fw.bound 1).size, fw.weight 1 k ≠ 1 ∧ fw.weight 1 0 < 0)) =
        some true := by decide +kernel
  obtain ⟨fw, e, h⟩ := Option.map_eq_some_iff.1 this
  exact ⟨fw, e, of_decide_eq_true h⟩

/-! ### C266: pictures of one value -/

/-- The quantised weights of a window add up to `2^15` up to 64, if the image is reduced to half its size or less. -/
theorem cubics_near64 {L : Lib} {r : ResamplingFunction} (hr : Cubics L r) {inn out : ℕ} {q : FilterWeights ℤ}
    (h2 : inn ≤ 2 ^ 15) (hh : 2 * out ≤ inn) (hq : IsTable L r inn out q)
    (ht : ∀ i, i < out → (q.bound i).size ≤ 124) {i : ℕ} (hi : i < out) :
    |(∑ k ∈ range (q.bound i).size, q.weight i k) - 32768| ≤ 64 := by
  obtain ⟨fw, e, rfl⟩ := hq
  obtain ⟨fw', ks, e', v, t⟩ := cubics_table hr (out := out) (by omega : 1 ≤ inn) h2
  unfold tableOf at e
  rw [e'] at e
  obtain rfl := Option.some.inj e
  have hf := cubics_ringing hr
  obtain ⟨fw'', e'', hs⟩ := C265_normalised hr inn out (by omega) h2
  rw [e'] at e''
  obtain rfl := Option.some.inj e''
  have hs := hs i hi
  have ht := ht i hi
  have hb : ((numericalApproximation F32.rnd fw').bound i) = fw'.bound i := rfl
  rw [t.q_sum v hi]
  rw [t.row_sum hi] at hs
  rw [hb] at ht
  have hin := v.inside i hi
  have hpos := v.size_pos i hi
  have hrl := t.rowLen i hi
  rw [t.bound hi] at hin hpos hs ht
  have hsz : wEnd F32.rnd (filterOf F32.rnd L r) inn out i ≤ inn := by
    have a1 : wStart F32.rnd (filterOf F32.rnd L r) inn out i +
      (wEnd F32.rnd (filterOf F32.rnd L r) inn out i - wStart F32.rnd (filterOf F32.rnd L r) inn out i) ≤ inn := hin
    omega
  have hn : wEnd F32.rnd (filterOf F32.rnd L r) inn out i - wStart F32.rnd (filterOf F32.rnd L r) inn out i ≤ 1024 :=
    le_trans ht (by norm_num)
  have hq := quantised_signed_near _ (ringing_no_clamp hf (cubics_resizable hr) h2 hh hi hsz hn)
  rw [hrl] at hq
  have hnq : (((genBound F32.rnd (filterOf F32.rnd L r) inn out i).size : ℕ) : ℚ) ≤ 124 := by exact_mod_cast ht
  have : |((((genRow F32.rnd (filterOf F32.rnd L r) inn out i).map (quantise F32.rnd)).sum - 32768 : ℤ) : ℚ)| ≤ ((64 : ℤ) : ℚ) := by
    rw [Int.cast_sub, Int.cast_ofNat, Int.cast_ofNat]
    rw [abs_le] at hq hs ⊢
    constructor <;> linarith [hq.1, hq.2, hs.1, hs.2]
  rwa [← Int.cast_abs, Int.cast_le] at this

/-- A dimension that keeps its size, or is reduced to half or less with windows of at most 124 pixels. -/
def Halved (L : Lib) (r : ResamplingFunction) (inn out : ℕ) : Prop :=
  inn = out ∨ 2 * out ≤ inn ∧ ∀ q, IsTable L r inn out q → Taps124 q out

/-- Results of pictures of one value, from the sums of the weights of the passes that take place. -/
theorem flat_of_sums {W N v : ℕ} {L : Lib} {r : ResamplingFunction} {store into out : Image ℕ}
    {qv qh : FilterWeights ℤ} (h : Accepted W N L r store into) (hv : v ≤ 255)
    (hflat : ∀ y x c, y < store.height → x < store.width → c < N →
      sample store.buffer (store.strideOf N) N y x c = some v)
    (tv : IsTable L r store.height into.height qv) (th : IsTable L r store.width into.width qh)
    (sv : store.height ≠ into.height → ∀ i, i < into.height → |(∑ k ∈ range (qv.bound i).size, qv.weight i k) - 32768| ≤ 64)
    (sh : store.width ≠ into.width → ∀ i, i < into.width → |(∑ k ∈ range (qh.bound i).size, qh.weight i k) - 32768| ≤ 64)
    (ho : genericResize W N (formatU8 N) L r store into = some (.ok (), out)) :
    ∀ y x c, y < into.height → x < into.width → c < N →
      sample out.buffer (into.strideOf N) N y x c = some v ∨
        (store.height ≠ into.height ∧ 1 ≤ v ∧ sample out.buffer (into.strideOf N) N y x c = some (v - 1)) := by
  obtain ⟨Tv, Th, e⟩ := result_eq h tv th ho
  intro y x c hy hx hc
  rw [e y x c hy hx hc]
  have hs : separable store.width store.height into.width into.height
      (fun i => (qv.bound i).start) (vU8 qv) (fun i => (qh.bound i).start) (hU8 qh)
      (fun y x => pxD 0 store.buffer (store.strideOf N) N y x c) y x =
      separable store.width store.height into.width into.height
      (fun i => (qv.bound i).start) (vU8 qv) (fun i => (qh.bound i).start) (hU8 qh) (fun _ _ => v) y x := by
    apply separable_congr
    intro y' x' h1 h2
    simp only [pxD]
    rw [hflat y' x' c ?_ ?_ hc]
    · rfl
    · split_ifs at h1 with hd
      · omega
      · have := Tv.inside y hy; omega
    · split_ifs at h2 with hd
      · omega
      · have := Th.inside x hx; omega
  rw [hs]
  unfold separable
  simp only
  split_ifs with h1 h2 h2
  · left; rfl
  · have hf := flat_floor hv (sv h2 y hy)
    rcases hf with hf | ⟨h0, hf⟩
    · left; unfold vU8; rw [hf]
    · right; refine ⟨h2, h0, ?_⟩; unfold vU8; rw [hf]
  · left; unfold hU8; rw [flat_round hv (sh h1 x hx)]
  · have hf := flat_floor hv (sv h2 y hy)
    rcases hf with hf | ⟨h0, hf⟩
    · left; unfold vU8 hU8; rw [hf, flat_round hv (sh h1 x hx)]
    · right; refine ⟨h2, h0, ?_⟩
      unfold vU8 hU8
      rw [hf, flat_round (by omega) (sh h1 x hx)]

/-- **C266.** A picture of one 8-bit value `v`, resized with a cubic filter, each dimension kept or reduced to half or
less (source up to 32768, windows of at most 124 pixels): every sample is `v`, or, if the height changes, possibly `v - 1`.
Missing: other sizes, where it is false (`C266_violated`). -/
theorem C266_flat_partial {W N v : ℕ} {L : Lib} {r : ResamplingFunction} {store into : Image ℕ}
    (hr : Cubics L r) (h : AcceptedCall W N r store into) (h15 : store.width ≤ 2 ^ 15 ∧ store.height ≤ 2 ^ 15)
    (hb : ∀ v ∈ store.buffer, v ≤ 255)
    (hflat : ∀ y x c, y < store.height → x < store.width → c < N →
      sample store.buffer (store.strideOf N) N y x c = some v)
    (hh : Halved L r store.height into.height ∧ Halved L r store.width into.width) :
    ∃ out, genericResize W N (formatU8 N) L r store into = some (.ok (), out) ∧
      ∀ y x c, y < into.height → x < into.width → c < N →
        sample out.buffer (into.strideOf N) N y x c = some v ∨
          (store.height ≠ into.height ∧ 1 ≤ v ∧ sample out.buffer (into.strideOf N) N y x c = some (v - 1)) := by
  have ht : TameCall L r store into := ⟨Or.inr (Or.inl ⟨hr, h15.2⟩), Or.inr (Or.inl ⟨hr, h15.1⟩)⟩
  obtain ⟨_, _, c3, _⟩ := checkResize_ok.1 h.checked
  have hA := (h.tame ht hb).1
  obtain ⟨qv, qh, out, tv, th, _, _, o1, _⟩ := C21_separable hA
  have hv : v ≤ 255 := by
    have hN := h.channels.1
    have := hflat 0 0 0 c3.2.1 c3.1 (by omega)
    unfold sample at this
    exact hb v (List.mem_of_getElem? this)
  refine ⟨out, o1, flat_of_sums hA hv hflat tv th (fun hne i hi => ?_) (fun hne i hi => ?_) o1⟩
  · rcases hh.1 with h3 | ⟨h3, h4⟩
    · exact absurd h3 hne
    · exact cubics_near64 hr h15.2 h3 tv (h4 _ tv) hi
  · rcases hh.2 with h3 | ⟨h3, h4⟩
    · exact absurd h3 hne
    · exact cubics_near64 hr h15.1 h3 th (h4 _ th) hi

/-- Example: Catmull-Rom, 30 x 4 pixels to 15 x 4. -/
example : ∃ out, genericResize (2 ^ 64) 1 (formatU8 1) demoLib .catmullRom ⟨List.replicate 120 77, 1, 30, 4, 30, 8⟩
    ⟨List.replicate 60 0, 1, 15, 4, 15, 8⟩ = some (.ok (), out) ∧ sample out.buffer 15 1 3 14 0 = some 77 := by
  have hc : AcceptedCall (2 ^ 64) 1 .catmullRom ⟨List.replicate 120 77, 1, 30, 4, 30, 8⟩
      ⟨List.replicate 60 0, 1, 15, 4, 15, 8⟩ := by constructor <;> decide +kernel
  have hf : ∀ y x c, y < 4 → x < 30 → c < 1 → sample (List.replicate 120 77) 30 1 y x c = some 77 := by
    intro y x c hy hx hc
    unfold sample
    rw [List.getElem?_replicate, if_pos]
    omega
  obtain ⟨out, h1, h2⟩ := C266_flat_partial (L := demoLib) (v := 77) (Or.inl (by decide)) hc ⟨by norm_num, by norm_num⟩
    (fun v hv => by rw [(List.mem_replicate.1 hv).2]; norm_num) hf ⟨Or.inl rfl, Or.inr ⟨by norm_num, by
      rintro q hq
      obtain ⟨fw, e, rfl⟩ := hq
      have v := (table_exists demoLib .catmullRom (inn := 30) (out := 15) (by norm_num) (by norm_num) (by simp))
      obtain ⟨fw', e', v, _⟩ := v
      intro i hi
      have : (numericalApproximation F32.rnd fw).bound i = fw'.bound i := by
        have e2 : some fw = some fw' := e.symm.trans e'
        rw [Option.some.inj e2]; rfl
      rw [this]
      have := v.inside i hi
      omega⟩⟩
  refine ⟨out, h1, ?_⟩
  rcases h2 3 14 0 (by decide) (by decide) (by decide) with h | ⟨h, _⟩
  · exact h
  · exact absurd rfl h

/-- **C266 is false in general**: doubling the width of a flat grey picture (200) with Catmull-Rom or Bicubic darkens
every other pixel to 182, with MitchellNetravalli to 194, and even a reduction from 8 to 7 pixels gives 183 (all with any
library). A window reaches only one pixel to each side when an image is enlarged, so the normalised weight of the nearer
pixel exceeds one, and a weight above one does not fit the 16-bit number that holds it. -/
theorem C266_violated (L : Lib) :
    (genericResize (2 ^ 64) 1 (formatU8 1) L .catmullRom ⟨List.replicate 4 200, 1, 4, 1, 4, 8⟩
      ⟨List.replicate 8 0, 1, 8, 1, 8, 8⟩).map (fun p => (p.1, p.2.buffer)) = some (.ok (), [182, 200, 200, 182, 200, 182, 200, 182]) ∧
    (genericResize (2 ^ 64) 1 (formatU8 1) L .bicubic ⟨List.replicate 4 200, 1, 4, 1, 4, 8⟩
      ⟨List.replicate 8 0, 1, 8, 1, 8, 8⟩).map (fun p => (p.1, p.2.buffer)) = some (.ok (), [182, 200, 200, 182, 200, 182, 200, 182]) ∧
    (genericResize (2 ^ 64) 1 (formatU8 1) L .mitchellNetravalli ⟨List.replicate 4 200, 1, 4, 1, 4, 8⟩
      ⟨List.replicate 8 0, 1, 8, 1, 8, 8⟩).map (fun p => (p.1, p.2.buffer)) = some (.ok (), [194, 200, 200, 194, 200, 194, 200, 194]) ∧
    (genericResize (2 ^ 64) 1 (formatU8 1) L .catmullRom ⟨List.replicate 8 200, 1, 8, 1, 8, 8⟩
      ⟨List.replicate 7 0, 1, 7, 1, 7, 8⟩).map (fun p => (p.1, p.2.buffer)) = some (.ok (), [200, 194, 183, 200, 200, 200, 200]) := by
  have e1 : ∀ s d, genericResize (2 ^ 64) 1 (formatU8 1) L .catmullRom s d = genericResize (2 ^ 64) 1 (formatU8 1) demoLib .catmullRom s d :=
    fun _ _ => rfl
  have e2 : ∀ s d, genericResize (2 ^ 64) 1 (formatU8 1) L .bicubic s d = genericResize (2 ^ 64) 1 (formatU8 1) demoLib .bicubic s d :=
    fun _ _ => rfl
  have e3 : ∀ s d, genericResize (2 ^ 64) 1 (formatU8 1) L .mitchellNetravalli s d =
      genericResize (2 ^ 64) 1 (formatU8 1) demoLib .mitchellNetravalli s d := fun _ _ => rfl
  rw [e1, e1, e2, e3]
  clear e1 e2 e3
  refine ⟨?_, ?_, ?_, ?_⟩ <;> decide +kernel

end PicScale
