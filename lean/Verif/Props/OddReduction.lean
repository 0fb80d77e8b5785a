import Verif.Props.Taps

/-!
Property theorem C258: reductions by an odd whole number, where the centre of every output pixel is the centre of a
source pixel.
-/

namespace PicScale

open Finset F32 Spec Kernel

/-- The source pixel in the middle of block `i` of `2 m + 1` pixels. -/
def Spec.middle (m i : ℕ) : ℕ := (2 * m + 1) * i + m

section odd

variable {inn out m i : ℕ} (h : DyadicRatio inn out (2 * m + 1) 0) (hi : i < out)
include h hi

theorem odd_centre : wCenter rnd inn out i = (middle m i : ℚ) + 1 / 2 := by
  rw [h.wCenter_eq hi]
  unfold middle
  push_cast; ring

theorem odd_middle_lt : middle m i < inn := by
  have h1 := h.ratio
  simp only [pow_zero, mul_one] at h1
  rw [h1]
  unfold middle
  nlinarith

theorem odd_dist {k : ℕ} (hk : k < inn) :
    rnd (rnd k - rnd (wCenter rnd inn out i - 1 / 2)) = (((k : ℤ) - middle m i : ℤ) : ℚ) := by
  rw [h.dist_eq hi hk, odd_centre h hi]
  push_cast; ring

end odd

/-- The spline filters and half their number of taps. -/
def splines : List (ResamplingFunction × ℕ) := [(.spline16, 1), (.spline36, 2), (.spline64, 3)]

theorem spline_zero (L : Lib) {r : ResamplingFunction} {R : ℕ} (hr : (r, R) ∈ splines) :
    (filterOf rnd L r).kernel 0 = 1 ∧ ∀ d : ℕ, 1 ≤ d → d ≤ R → (filterOf rnd L r).kernel d = 0 := by
  have key : ∀ {k : ℚ → ℚ} {R : ℕ}, (k 0 = 1 ∧ ∀ d : ℕ, d < R → k ((d + 1 : ℕ) : ℚ) = 0) →
      (k 0 = 1 ∧ ∀ d : ℕ, 1 ≤ d → d ≤ R → k d = 0) := by
    intro k R hk
    refine ⟨hk.1, fun d h1 h2 => ?_⟩
    have := hk.2 (d - 1) (by omega)
    rwa [Nat.sub_add_cancel h1] at this
  simp only [splines, List.mem_cons, Prod.mk.injEq, List.not_mem_nil, or_false] at hr
  rcases hr with ⟨rfl, rfl⟩ | ⟨rfl, rfl⟩ | ⟨rfl, rfl⟩
  · exact key (k := spline16 rnd) (by decide +kernel)
  · exact key (k := spline36 rnd) (by decide +kernel)
  · exact key (k := spline64 rnd) (by decide +kernel)

theorem spline_shape (L : Lib) {r : ResamplingFunction} {R : ℕ} (hr : (r, R) ∈ splines) (inn out : ℕ) :
    wKernelSize rnd (filterOf rnd L r) inn out = 2 * R ∧ wFilterScale rnd (filterOf rnd L r) inn out = 1 ∧
      (filterOf rnd L r).window = none ∧ (filterOf rnd L r).isEwa = false ∧ 1 ≤ R ∧ R ≤ 3 ∧ r ≠ .area := by
  have hc : (filterOf rnd L r).isResizable = false → wCutoff rnd (filterOf rnd L r) inn out = 1 := by
    intro hh; unfold wCutoff; rw [hh]; rfl
  have hk : ∀ n : ℕ, n ≤ 100 → F32.toUsize (F32.round (rnd ((n : ℚ) * 1))) = n := by
    intro n hn
    rw [mul_one, RoundOK.rnd.nat (by omega)]
    have := round_int (n : ℤ) (by positivity)
    rw [Int.cast_natCast] at this
    rw [this]; unfold F32.toUsize; omega
  have one : rnd (1 / 1) = 1 := by have := RoundOK.rnd.one; norm_num at this ⊢; exact this
  have a2 := hk 2 (by norm_num)
  have a4 := hk 4 (by norm_num)
  have a6 := hk 6 (by norm_num)
  push_cast at a2 a4 a6
  simp only [splines, List.mem_cons, Prod.mk.injEq, List.not_mem_nil, or_false] at hr
  unfold wKernelSize wFilterScale
  rcases hr with ⟨rfl, rfl⟩ | ⟨rfl, rfl⟩ | ⟨rfl, rfl⟩ <;> rw [hc rfl]
  · exact ⟨a2, one, rfl, rfl, by norm_num, by norm_num, by decide⟩
  · exact ⟨a4, one, rfl, rfl, by norm_num, by norm_num, by decide⟩
  · exact ⟨a6, one, rfl, rfl, by norm_num, by norm_num, by decide⟩

theorem sumF_zeros (n : ℕ) {s : ℚ} (hs : rnd s = s) : (List.replicate n (0 : ℚ)).foldl (fun s w => rnd (s + w)) s = s := by
  induction n with
  | zero => rfl
  | succ n ih =>
    rw [List.replicate_succ, List.foldl_cons, add_zero, hs, ih]

/-- Normalising a row with a single weight 1. -/
theorem normRow_hot (a b : ℕ) :
    let ws := List.replicate a (0 : ℚ) ++ 1 :: List.replicate b 0
    normRow rnd (ws, sumF rnd ws) = ws := by
  intro ws
  have hs : sumF rnd ws = 1 := by
    show sumF rnd (List.replicate a (0 : ℚ) ++ 1 :: List.replicate b 0) = 1
    unfold sumF
    rw [List.foldl_append, sumF_zeros a RoundOK.rnd.zero, List.foldl_cons, zero_add, RoundOK.rnd.one,
      sumF_zeros b RoundOK.rnd.one]
  have one : rnd (1 / 1) = 1 := by have := RoundOK.rnd.one; norm_num at this ⊢; exact this
  unfold normRow
  simp only
  rw [hs, if_pos (by norm_num), one]
  show (List.replicate a (0 : ℚ) ++ 1 :: List.replicate b 0).map _ = List.replicate a (0 : ℚ) ++ 1 :: List.replicate b 0
  simp [RoundOK.rnd.one, RoundOK.rnd.zero]

theorem single_list {ws : List ℚ} {j : ℕ} (hj : j < ws.length)
    (h : ∀ a, a < ws.length → ws.getD a 0 = if a = j then 1 else 0) :
    ws = List.replicate j 0 ++ 1 :: List.replicate (ws.length - j - 1) 0 := by
  apply List.ext_getElem
  · simp; omega
  · intro a h1 h2
    have := h a h1
    rw [List.getD_eq_getElem?_getD, List.getElem?_eq_getElem h1, Option.getD_some] at this
    rw [this]
    split_ifs with e
    · subst e
      rw [List.getElem_append_right (by simp)]; simp
    · rcases Nat.lt_or_ge a j with hlt | hge
      · rw [List.getElem_append_left (by simpa using hlt), List.getElem_replicate]
      · rw [List.getElem_append_right (by simpa using hge)]
        have e2 : a - (List.replicate j (0 : ℚ)).length = (a - j - 1) + 1 := by simp; omega
        simp only [e2, List.getElem_cons_succ, List.getElem_replicate]

/-- Rows of the quantised table of a spline at odd reductions: the middle pixel, alone. -/
theorem spline_table {L : Lib} {r : ResamplingFunction} {R inn out m i : ℕ} {q : FilterWeights ℤ} (hr : (r, R) ∈ splines)
    (h : DyadicRatio inn out (2 * m + 1) 0) (hq : IsTable L r inn out q) (hi : i < out) :
    (q.bound i).start ≤ middle m i ∧ middle m i < (q.bound i).start + (q.bound i).size ∧
      ∀ k, k < (q.bound i).size → q.weight i k = if (q.bound i).start + k = middle m i then 32767 else 0 := by
  obtain ⟨z0, z⟩ := spline_zero L hr
  obtain ⟨ks, fs, fw, fe, R1, R3, har⟩ := spline_shape L hr inn out
  obtain ⟨v, hrow⟩ := table_general h.inn_pos h.inn_le (fun a => absurd a har) hq
  obtain ⟨b, w⟩ := hrow i hi
  have hin := v.inside i hi
  obtain ⟨E1, E2⟩ := window_eq (f := filterOf rnd L r) h hi (by omega)
  have hm := odd_middle_lt h hi
  rw [odd_centre h hi, ks] at E1 E2
  have c1 : ⌊(middle m i : ℚ) + 1 / 2 - ((2 * R : ℕ) : ℚ) / 2⌋ = (middle m i : ℤ) - R := by
    rw [Int.floor_eq_iff]; push_cast; constructor <;> linarith
  have c2 : ⌈(middle m i : ℚ) + 1 / 2 + ((2 * R : ℕ) : ℚ) / 2⌉ = (middle m i : ℤ) + R + 1 := by
    rw [Int.ceil_eq_iff]; push_cast; constructor <;> linarith
  rw [c1] at E1
  rw [c2] at E2
  set s := wStart rnd (filterOf rnd L r) inn out i with hs
  set e := wEnd rnd (filterOf rnd L r) inn out i with he
  have bs : (q.bound i).start = s := by rw [b]; rfl
  have bz : (q.bound i).size = e - s := by rw [b]; rfl
  have inside : s ≤ middle m i ∧ middle m i < s + (e - s) := by omega
  refine ⟨by omega, by omega, fun k hk => ?_⟩
  have raw : ∀ a, a < e - s → (rawRow rnd (filterOf rnd L r) inn out i).getD a 0 = if a = middle m i - s then 1 else 0 := by
    intro a ha
    rw [rawRow_getD (by exact ha)]
    have hlt : s + a < inn := by omega
    show rawWeight rnd (filterOf rnd L r) inn out i (s + a) = _
    unfold rawWeight
    simp only [fw]
    rw [odd_dist h hi hlt, fs, mul_one]
    by_cases ham : a = middle m i - s
    · rw [if_pos ham]
      have e0 : ((s + a : ℕ) : ℤ) - middle m i = 0 := by omega
      rw [e0, Int.cast_zero, abs_zero, RoundOK.rnd.zero, z0]
    · rw [if_neg ham]
      obtain ⟨d, hd⟩ := Int.eq_ofNat_of_zero_le (abs_nonneg (((s + a : ℕ) : ℤ) - middle m i))
      have hdq : |((((s + a : ℕ) : ℤ) - middle m i : ℤ) : ℚ)| = (d : ℚ) := by
        have : ((|((s + a : ℕ) : ℤ) - middle m i| : ℤ) : ℚ) = d := by rw [hd]; simp
        rw [← this, Int.cast_abs]
      have d1 : 1 ≤ d ∧ d ≤ R := by
        have p1 : |((s + a : ℕ) : ℤ) - middle m i| ≤ R := by rw [abs_le]; constructor <;> omega
        have p2 : 0 < |((s + a : ℕ) : ℤ) - middle m i| := abs_pos.2 (by omega)
        omega
      rw [hdq, RoundOK.rnd.nat (by omega), z d d1.1 d1.2]
  have len : (rawRow rnd (filterOf rnd L r) inn out i).length = e - s := by simp [rawRow, hs, he]
  have hl := single_list (ws := rawRow rnd (filterOf rnd L r) inn out i) (j := middle m i - s) (by omega)
    (fun a ha => raw a (by omega))
  have gen : genRow rnd (filterOf rnd L r) inn out i = rawRow rnd (filterOf rnd L r) inn out i := by
    rw [genRow_of fe hl]
    exact (normRow_hot _ _).trans hl.symm
  rw [w k hk, gen, raw k (by omega)]
  by_cases hkm : (q.bound i).start + k = middle m i
  · rw [if_pos hkm, if_pos (by omega)]
    decide +kernel
  · rw [if_neg hkm, if_neg (by omega)]
    exact quantise_zero RoundOK.rnd

theorem wsum_hot {n s j : ℕ} {w : ℕ → ℤ} {p : ℕ → ℕ} (h1 : s ≤ j) (h2 : j < s + n)
    (hw : ∀ k, k < n → w k = if s + k = j then 32767 else 0) :
    wsum n w (fun a => ((p (s + a) : ℕ) : ℤ)) = 32767 * p j := by
  unfold wsum
  rw [sum_eq_single (j - s)]
  · simp only
    rw [hw _ (by omega), if_pos (by omega), show s + (j - s) = j by omega]
  · intro a ha hne
    rw [hw a (mem_range.1 ha), if_neg (by omega), zero_mul]
  · intro hn; exact absurd (mem_range.2 (by omega)) hn

theorem fixedFloor_one {v : ℕ} (h : v ≤ 255) : clamp 255 (fixFloor (32767 * v)) = v - 1 := by
  have e : fixFloor (32767 * v) = (v : ℤ) - if v = 0 then 0 else 1 := by
    unfold fixFloor
    have hq : (v : ℚ) ≤ 255 := by exact_mod_cast h
    rw [Int.floor_eq_iff]
    split_ifs with h0
    · subst h0; norm_num
    · have : (1 : ℚ) ≤ v := by exact_mod_cast Nat.one_le_iff_ne_zero.2 h0
      push_cast; constructor <;> linarith
  rw [e]; unfold clamp
  split_ifs <;> omega

/-- Calls with a spline filter never overflow: at most six taps. -/
theorem AcceptedCall.spline {W N R : ℕ} {L : Lib} {r : ResamplingFunction} {store into : Image ℕ} (hr : (r, R) ∈ splines)
    (h : AcceptedCall W N r store into) (hb : ∀ v ∈ store.buffer, v ≤ 255) : Accepted W N L r store into := by
  obtain ⟨_, _, c3, _⟩ := checkResize_ok.1 h.checked
  have taps : ∀ {inn out : ℕ} {q : FilterWeights ℤ}, 1 ≤ inn → inn ≤ 2 ^ 23 → IsTable L r inn out q → NoOverflow q out 255 := by
    intro inn out q h1 h2 hq
    obtain ⟨ks, _, _, _, R1, R3, har⟩ := spline_shape L hr inn out
    refine noOverflow_of_taps h1 h2 (fun a => absurd a har) hq ?_
    obtain ⟨fw, e, rfl⟩ := hq
    obtain ⟨fw', e', v, t⟩ := generateWeights_spec RoundOK.rnd (filterOf_ok L r) (out := out) h1 h2
      (fun hA => absurd (filterOf_area L r hA) har)
    unfold tableOf at e
    rw [e'] at e
    obtain rfl := Option.some.inj e
    rcases t with ⟨_, t⟩ | ⟨⟨a1, _⟩, _⟩
    · show fw'.kernelSize ≤ 256
      rw [t.kernel, ks]; omega
    · exact absurd (filterOf_area L r a1) har
  exact ⟨h.channels, h.checked, h.filter, h.sizes, h.small, h.area, h.fits, hb,
    fun q hq => taps c3.2.1 h.small.2 hq, fun q hq => taps c3.1 h.small.1 hq⟩

/-- **C258.** `Spline16`, `Spline36` and `Spline64` do not widen their kernels when reducing. Dividing the width by an
odd number `2 m + 1` and the height by an odd number `2 n + 1` (8-bit; `m = 0` or `n = 0`: that size is kept) returns
the middle pixel of every block whatever the other pixels are: unchanged when the height is kept, one darker (but not
below 0) when it is not. -/
theorem C258_middle {W N m n R : ℕ} {L : Lib} {r : ResamplingFunction} {store into : Image ℕ} (hr : (r, R) ∈ splines)
    (h : AcceptedCall W N r store into) (hb : ∀ v ∈ store.buffer, v ≤ 255)
    (hw : DyadicRatio store.width into.width (2 * m + 1) 0) (hh : DyadicRatio store.height into.height (2 * n + 1) 0) :
    ∃ out, genericResize W N (formatU8 N) L r store into = some (.ok (), out) ∧
      ∀ y x c, y < into.height → x < into.width → c < N →
        sample out.buffer (into.strideOf N) N y x c = some
          (pxD 0 store.buffer (store.strideOf N) N ((2 * n + 1) * y + n) ((2 * m + 1) * x + m) c - if n = 0 then 0 else 1) := by
  obtain ⟨qv, qh, out, tv, th, vv, vh, o1, o2, o3, o4⟩ := C21_separable (h.spline (L := L) hr hb)
  refine ⟨out, o1, fun y x c hy hx hc => ?_⟩
  rw [o4 y x c hy hx hc]
  congr 1
  have same : ∀ {inn out k : ℕ}, DyadicRatio inn out (2 * k + 1) 0 → (inn = out ↔ k = 0) := by
    intro inn out k hd
    have h1 := hd.ratio
    have h2 := hd.out_pos
    simp only [pow_zero, mul_one] at h1
    constructor
    · intro e; rw [e] at h1
      have : 2 * k + 1 = 1 := Nat.eq_of_mul_eq_mul_left h2 (by omega)
      omega
    · rintro rfl; omega
  obtain ⟨v1, v2, v3⟩ := spline_table hr hh tv hy
  obtain ⟨h1, h2, h3⟩ := spline_table hr hw th hx
  have rows : ∀ j, (if store.height = into.height then pxD 0 store.buffer (store.strideOf N) N y j c else
      fixedFloor 255 (qv.bound y).size (fun k => qv.weight y k)
        (fun k => pxD 0 store.buffer (store.strideOf N) N ((qv.bound y).start + k) j c)) =
      pxD 0 store.buffer (store.strideOf N) N ((2 * n + 1) * y + n) j c - if n = 0 then 0 else 1 := by
    intro j
    by_cases hn : n = 0
    · rw [if_pos ((same hh).2 hn), if_pos hn, hn]; simp
    · rw [if_neg (fun e => hn ((same hh).1 e)), if_neg hn]
      unfold fixedFloor
      rw [wsum_hot (p := fun a => pxD 0 store.buffer (store.strideOf N) N a j c) v1 v2 v3]
      exact fixedFloor_one (pxD_byte hb N c _ j)
  unfold separable
  simp only
  simp only [rows]
  by_cases hm : m = 0
  · rw [if_pos ((same hw).2 hm), hm]; simp
  · rw [if_neg (fun e => hm ((same hw).1 e))]
    unfold fixedRound
    rw [wsum_hot (p := fun a => pxD 0 store.buffer (store.strideOf N) N ((2 * n + 1) * y + n) a c - if n = 0 then 0 else 1) h1 h2 h3]
    exact fixedRound_one (le_trans (Nat.sub_le _ _) (pxD_byte hb N c _ _))

/-- Nine pixels by three to three by one. -/
def Demo.pic93 : Image ℕ := ⟨[255, 255, 255, 255, 255, 255, 255, 255, 255, 255, 10, 255, 255, 20, 255, 255, 0, 255,
  255, 255, 255, 255, 255, 255, 255, 255, 255], 1, 9, 3, 9, 8⟩
def Demo.pic31 : Image ℕ := ⟨[0, 0, 0], 1, 3, 1, 3, 8⟩

example : ∃ out, genericResize (2 ^ 64) 1 (formatU8 1) demoLib .spline36 Demo.pic93 Demo.pic31 = some (.ok (), out) ∧
    sample out.buffer 3 1 0 0 0 = some 9 ∧ sample out.buffer 3 1 0 1 0 = some 19 ∧ sample out.buffer 3 1 0 2 0 = some 0 := by
  obtain ⟨out, o1, o⟩ := C258_middle (L := demoLib) (r := .spline36) (R := 2) (W := 2 ^ 64) (N := 1) (m := 1) (n := 1)
    (store := Demo.pic93) (into := Demo.pic31) (by decide) (by constructor <;> decide) (by decide)
    ⟨by decide, by decide, by decide, by decide⟩ ⟨by decide, by decide, by decide, by decide⟩
  exact ⟨out, o1, (o 0 0 0 (by decide) (by decide) (by decide)).trans (by decide),
    (o 0 1 0 (by decide) (by decide) (by decide)).trans (by decide), (o 0 2 0 (by decide) (by decide) (by decide)).trans (by decide)⟩

/-! ### The kernels of `Lanczos*Jinc` at odd reductions -/

/-- The filters whose kernel is zero at distance 0, without smoothing. -/
def jincs : List (ResamplingFunction × ℕ) := [(.lanczos2Jinc, 2), (.lanczos3Jinc, 3), (.lanczos4Jinc, 4), (.lanczos6Jinc, 6)]

/-- Rows of the quantised table of `Lanczos*Jinc` at odd reductions: the middle pixel has no weight. -/
theorem jinc_table {L : Lib} {r : ResamplingFunction} {R inn out m i k : ℕ} {q : FilterWeights ℤ} (hr : (r, R) ∈ jincs)
    (h : DyadicRatio inn out (2 * m + 1) 0) (hq : IsTable L r inn out q) (hi : i < out)
    (hk : k < (q.bound i).size) (hm : (q.bound i).start + k = middle m i) : q.weight i k = 0 := by
  have hf : (filterOf rnd L r).kernel 0 = 0 ∧ (filterOf rnd L r).window = none ∧ (filterOf rnd L r).isEwa = false ∧ r ≠ .area := by
    simp only [jincs, List.mem_cons, Prod.mk.injEq, List.not_mem_nil, or_false] at hr
    rcases hr with ⟨rfl, rfl⟩ | ⟨rfl, rfl⟩ | ⟨rfl, rfl⟩ | ⟨rfl, rfl⟩ <;>
      exact ⟨by simp [filterOf, Filter.new, lanczosJinc], rfl, rfl, by decide⟩
  obtain ⟨z0, fw, fe, har⟩ := hf
  obtain ⟨v, hrow⟩ := table_general h.inn_pos h.inn_le (fun a => absurd a har) hq
  obtain ⟨b, w⟩ := hrow i hi
  rw [w k hk]
  rw [b] at hk hm
  have raw : (rawRow rnd (filterOf rnd L r) inn out i).getD k 0 = 0 := by
    rw [rawRow_getD hk, hm]
    unfold rawWeight
    simp only [fw]
    rw [odd_dist h hi (odd_middle_lt h hi), sub_self, Int.cast_zero, abs_zero, zero_mul, RoundOK.rnd.zero, z0]
  have : (genRow rnd (filterOf rnd L r) inn out i).getD k 0 = 0 := by
    rw [genRow_of fe rfl]
    unfold normRow
    simp only [List.getD_eq_getElem?_getD] at raw ⊢
    split_ifs
    · rw [List.getElem?_map]
      cases hg : (rawRow rnd (filterOf rnd L r) inn out i)[k]? with
      | none => rfl
      | some a =>
        rw [hg] at raw
        simp only [Option.getD_some] at raw
        simp [raw, RoundOK.rnd.zero]
    · rw [List.getElem?_replicate]
      split_ifs <;> rfl
  rw [this, quantise_zero RoundOK.rnd]

/-- **C257 is false of `Lanczos*Jinc`**, with any math library: reducing the width by an odd number (height kept), the
source pixel at the centre of an output pixel, the nearest one, has no influence on it at all. -/
theorem C257_jinc_violated {W N m R x : ℕ} {L : Lib} {r : ResamplingFunction} {store store' into into' : Image ℕ}
    (hr : (r, R) ∈ jincs) (h : Accepted W N L r store into) (h' : Accepted W N L r store' into')
    (hs : SameShape store' store) (hi : SameShape into' into) (hm : 1 ≤ m)
    (hd : DyadicRatio store.width into.width (2 * m + 1) 0) (hh : store.height = into.height) (hx : x < into.width)
    (hp : ∀ y k c, y < store.height → k < store.width → c < N → k ≠ (2 * m + 1) * x + m →
      sample store'.buffer (store.strideOf N) N y k c = sample store.buffer (store.strideOf N) N y k c) :
    ∃ out out', genericResize W N (formatU8 N) L r store into = some (.ok (), out) ∧
      genericResize W N (formatU8 N) L r store' into' = some (.ok (), out') ∧
      ∀ y c, y < into.height → c < N →
        sample out'.buffer (into.strideOf N) N y x c = sample out.buffer (into.strideOf N) N y x c := by
  obtain ⟨qv, qh, out, out', tv, th, vv, vh, o1, o1', o⟩ := two_resizes h h' hs hi
  refine ⟨out, out', o1, o1', fun y c hy hc => ?_⟩
  have e1 := o true y x c hy hx hc
  have e2 := o false y x c hy hx hc
  simp only [if_true, Bool.false_eq_true, if_false] at e1 e2
  rw [e1, e2]
  congr 1
  have hne : store.width ≠ into.width := by
    have h1 := hd.ratio
    have h2 := hd.out_pos
    simp only [pow_zero, mul_one] at h1
    intro e
    rw [e] at h1
    have : 2 * m + 1 = 1 := Nat.eq_of_mul_eq_mul_left h2 (by omega)
    omega
  unfold separable
  simp only
  rw [if_neg hne, if_neg hne]
  simp only [if_pos hh]
  have hin := vh.inside x hx
  have z : ∀ k, k < (qh.bound x).size → (qh.bound x).start + k = middle m x → qh.weight x k = 0 :=
    fun k hk => jinc_table hr hd th hx hk
  unfold fixedRound
  congr 2
  unfold wsum
  refine sum_congr rfl fun k hk => ?_
  have hk' := mem_range.1 hk
  simp only
  by_cases hkm : (qh.bound x).start + k = middle m x
  · rw [z k hk' hkm, zero_mul, zero_mul]
  · unfold pxD
    rw [hp y ((qh.bound x).start + k) c (by omega) (by omega) hc hkm]

/-- Nine pixels to three with `Lanczos3Jinc`: the bright pixels 1, 4 and 7 are each invisible under themselves. -/
def Demo.row9 : Image ℕ := ⟨[0, 0, 0, 0, 0, 0, 0, 0, 0], 1, 9, 1, 9, 8⟩
def Demo.row9b : Image ℕ := ⟨[0, 0, 0, 0, 255, 0, 0, 0, 0], 1, 9, 1, 9, 8⟩

example : ∃ out out', genericResize (2 ^ 64) 1 (formatU8 1) demoLib .lanczos3Jinc Demo.row9 Demo.row3z = some (.ok (), out) ∧
    genericResize (2 ^ 64) 1 (formatU8 1) demoLib .lanczos3Jinc Demo.row9b Demo.row3z = some (.ok (), out') ∧
    sample out'.buffer 3 1 0 1 0 = sample out.buffer 3 1 0 1 0 := by
  have acc : ∀ s, s = Demo.row9 ∨ s = Demo.row9b → Accepted (2 ^ 64) 1 demoLib .lanczos3Jinc s Demo.row3z := by
    rintro s (rfl | rfl) <;> exact Demo.acceptedAny (by decide) (by decide) (by decide) (by decide) (by decide) (by decide)
      (by decide) (by decide +kernel) (by decide +kernel)
  obtain ⟨out, out', o1, o2, o⟩ := C257_jinc_violated (R := 3) (m := 1) (x := 1) (by decide) (acc _ (Or.inl rfl)) (acc _ (Or.inr rfl))
    (by unfold SameShape; decide) (by unfold SameShape; decide) (by norm_num) ⟨by decide, by decide, by decide, by decide⟩ rfl
    (by decide) (by
      intro y k c hy hk hc
      have a : y = 0 := by have : y < 1 := hy; omega
      have b : c = 0 := by omega
      subst a; subst b
      have hk' : k < 9 := hk
      interval_cases k <;> decide)
  exact ⟨out, out', o1, o2, o 0 0 (by decide) (by decide)⟩

end PicScale
