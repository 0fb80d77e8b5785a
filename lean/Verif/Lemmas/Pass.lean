import Verif.Lemmas.Slices
import Verif.Model.Pass
import Verif.SpecTable
import Mathlib.Tactic.Ring
import Mathlib.Tactic.Linarith

namespace PicScale

variable {S A W α β : Type}

/-- Left-to-right accumulation of `n` terms. -/
def accum (st : A → A → W → A) (i0 : A) (p : Nat → A) (w : Nat → W) : Nat → A
  | 0 => i0
  | n + 1 => st (accum st i0 p w n) (p n) (w n)

theorem accum_congr {st : A → A → W → A} {i0 : A} {p p' : Nat → A} {w w' : Nat → W} {n : Nat}
    (hp : ∀ k, k < n → p k = p' k) (hw : ∀ k, k < n → w k = w' k) :
    accum st i0 p w n = accum st i0 p' w' n := by
  induction n with
  | zero => rfl
  | succ n ih =>
    simp only [accum]
    rw [ih (fun k hk => hp k (by omega)) (fun k hk => hw k (by omega)), hp n (by omega),
      hw n (by omega)]

theorem getD_eq_of_getElem? {l : List α} {i : Nat} {d v : α} (h : l[i]? = some v) :
    l.getD i d = v := by simp [List.getD_eq_getElem?_getD, h]

theorem getElem?_eq_some_getD {l : List α} {i : Nat} (d : α) (h : i < l.length) :
    l[i]? = some (l.getD i d) := by
  simp [List.getD_eq_getElem?_getD, h]

theorem slice_eq_map_range {l : List α} {a n : Nat} (d : α) (h : a + n ≤ l.length) :
    (l.drop a).take n = (List.range n).map fun c => l.getD (a + c) d := by
  apply List.ext_getElem?
  intro i
  by_cases hi : i < n
  · rw [List.getElem?_take]
    simp only [hi, if_true, List.getElem?_drop, List.getElem?_map, List.getElem?_range, Option.map_some]
    exact getElem?_eq_some_getD d (by omega)
  · rw [List.getElem?_take]
    simp [hi]

theorem loadGroup_eq {conv : S → A} {N : Nat} (hN : 1 ≤ N ∧ N ≤ 4) {s : List S} {off : Nat} (d : S)
    (h : off + N ≤ s.length) :
    loadGroup conv N s off = some ((List.range N).map fun c => conv (s.getD (off + c) d)) := by
  unfold loadGroup
  rw [if_pos hN, slice?_eq_some (by omega) h]
  simp only [Option.map_some, Nat.add_sub_cancel_left]
  rw [slice_eq_map_range d h]
  simp [Function.comp_def]

theorem zip_get {l : List α} {m : List β} {i : Nat} {a : α} {b : β} (ha : l[i]? = some a)
    (hb : m[i]? = some b) : (l.zip m)[i]? = some (a, b) := by
  rw [List.getElem?_zip_eq_some]
  exact ⟨ha, hb⟩

/-- `foldlM` over the first `n` elements of a list whose elements are known. -/
theorem foldlM_take {σ : Type} (f : σ → β → Option σ) (l : List β) (g : Nat → β) (s : Nat → σ)
    (n : Nat) (hl : ∀ i, i < n → l[i]? = some (g i))
    (hstep : ∀ i, i < n → f (s i) (g i) = some (s (i + 1))) :
    (l.take n).foldlM f (s 0) = some (s n) := by
  induction n with
  | zero => simp
  | succ n ih =>
    have h1 := ih (fun i hi => hl i (by omega)) (fun i hi => hstep i (by omega))
    have h2 : l.take (n + 1) = l.take n ++ [g n] := by
      rw [List.take_succ, hl n (by omega)]; rfl
    rw [h2, List.foldlM_append, h1]
    simp [hstep n (by omega)]

theorem chunk_of_slice {s : List S} {src : List S} {px n N k : Nat}
    (hs : slice? src px (px + n * N) = some s) (hk : k < n) (hN : 0 < N) :
    (chunksExact N s)[k]? = some ((src.drop (px + k * N)).take N) := by
  have hlen : s.length = n * N := by
    have := slice?_length hs; omega
  rw [chunksExact_get N s k (by rw [hlen, Nat.mul_div_cancel _ hN]; exact hk)]
  congr 1
  have hkn : k * N + N ≤ n * N := by
    have := Nat.mul_le_mul_right N (show k + 1 ≤ n from hk)
    rw [Nat.add_mul] at this; omega
  apply List.ext_getElem?
  intro i
  rw [List.getElem?_take, List.getElem?_take]
  by_cases hi : i < N
  · simp only [hi, if_true, List.getElem?_drop]
    rw [slice?_get hs _ (by omega)]
    congr 1; omega
  · simp [hi]

theorem loadGroup_chunk {conv : S → A} {N : Nat} (hN : 1 ≤ N ∧ N ≤ 4) {src : List S} {off : Nat}
    (d : S) (h : off + N ≤ src.length) :
    loadGroup conv N ((src.drop off).take N) 0 =
      some ((List.range N).map fun c => conv (src.getD (off + c) d)) := by
  rw [loadGroup_eq hN d (by simp; omega)]
  congr 1
  apply List.map_congr_left
  intro c hc
  have hc : c < N := by simpa using hc
  congr 1
  rw [List.getD_eq_getElem?_getD, List.getElem?_take]
  simp [hc, List.getD_eq_getElem?_getD]

theorem groupFold_eq {conv : S → A} {step : List A → List A → W → List A} {st : A → A → W → A}
    {N : Nat} (hN : 1 ≤ N ∧ N ≤ 4)
    (hst : ∀ (f g : Nat → A) w, step ((List.range N).map f) ((List.range N).map g) w =
      (List.range N).map fun c => st (f c) (g c) w)
    {i0 : A} {src : List S} {px size : Nat} {weights : List W} (dS : S) (dW : W)
    (hsrc : px + size * N ≤ src.length) (hw : size ≤ weights.length) :
    groupFold conv step (List.replicate N i0) N src px weights size =
      some ((List.range N).map fun c => accum st i0
        (fun k => conv (src.getD (px + k * N + c) dS)) (fun k => weights.getD k dW) size) := by
  unfold groupFold
  have hs := slice?_eq_some (l := src) (a := px) (b := px + size * N) (by omega) hsrc
  rw [hs]
  simp only [Option.bind_eq_bind, Option.bind_some]
  have h0 : List.replicate N i0 = (List.range N).map fun c => accum st i0
      (fun k => conv (src.getD (px + k * N + c) dS)) (fun k => weights.getD k dW) 0 := by
    simp [accum, List.map_const']
  rw [h0]
  refine foldlM_take _ _ (fun k => (weights.getD k dW, (src.drop (px + k * N)).take N))
    (fun n => (List.range N).map fun c => accum st i0
        (fun k => conv (src.getD (px + k * N + c) dS)) (fun k => weights.getD k dW) n) size ?_ ?_
  · intro i hi
    exact zip_get (getElem?_eq_some_getD dW (by omega)) (chunk_of_slice hs hi (by omega))
  · intro i hi
    have : i * N + N ≤ size * N := by
      have := Nat.mul_le_mul_right N (show i + 1 ≤ size from hi)
      rw [Nat.add_mul] at this; omega
    simp only [loadGroup_chunk hN dS (show px + i * N + N ≤ src.length by omega), Option.bind_some, hst, accum]

theorem groupFold4_eq {conv : S → A} {step : List A → List A → W → List A} {st : A → A → W → A}
    {N : Nat} (hN : 1 ≤ N ∧ N ≤ 4)
    (hst : ∀ (f g : Nat → A) w, step ((List.range N).map f) ((List.range N).map g) w =
      (List.range N).map fun c => st (f c) (g c) w)
    {i0 : A} {src : List S} {stride px size : Nat} {weights : List W} (dS : S) (dW : W)
    (hsrc : px + stride * 3 + size * N ≤ src.length) (hw : size ≤ weights.length) :
    groupFold4 conv step (List.replicate N i0) N src stride px weights size =
      (let v := fun r => (List.range N).map fun c => accum st i0
        (fun k => conv (src.getD (px + stride * r + k * N + c) dS)) (fun k => weights.getD k dW) size
      some (v 0, v 1, v 2, v 3)) := by
  unfold groupFold4
  have hs0 := slice?_eq_some (l := src) (a := px) (b := px + size * N) (by omega) (by omega)
  have hs1 := slice?_eq_some (l := src) (a := px + stride) (b := px + stride + size * N) (by omega) (by omega)
  have hs2 := slice?_eq_some (l := src) (a := px + stride * 2) (b := px + stride * 2 + size * N) (by omega) (by omega)
  have hs3 := slice?_eq_some (l := src) (a := px + stride * 3) (b := px + stride * 3 + size * N) (by omega) (by omega)
  rw [hs0, hs1, hs2, hs3]
  simp only [Option.bind_eq_bind, Option.bind_some]
  let v : Nat → Nat → List A := fun n r => (List.range N).map fun c => accum st i0
        (fun k => conv (src.getD (px + stride * r + k * N + c) dS)) (fun k => weights.getD k dW) n
  have h0 : ∀ r, List.replicate N i0 = v 0 r := by
    intro r; simp [v, accum, List.map_const']
  have : (List.replicate N i0, List.replicate N i0, List.replicate N i0, List.replicate N i0) =
      (v 0 0, v 0 1, v 0 2, v 0 3) := by
    rw [← h0, ← h0, ← h0, ← h0]
  rw [this]
  refine foldlM_take _ _ (fun k => ((((weights.getD k dW, (src.drop (px + k * N)).take N),
      (src.drop (px + stride + k * N)).take N), (src.drop (px + stride * 2 + k * N)).take N),
      (src.drop (px + stride * 3 + k * N)).take N))
    (fun n => (v n 0, v n 1, v n 2, v n 3)) size ?_ ?_
  · intro i hi
    exact zip_get (zip_get (zip_get (zip_get (getElem?_eq_some_getD dW (by omega))
      (chunk_of_slice hs0 hi (by omega))) (chunk_of_slice hs1 hi (by omega)))
      (chunk_of_slice hs2 hi (by omega))) (chunk_of_slice hs3 hi (by omega))
  · intro i hi
    have : i * N + N ≤ size * N := by
      have := Nat.mul_le_mul_right N (show i + 1 ≤ size from hi)
      rw [Nat.add_mul] at this; omega
    simp only [loadGroup_chunk hN dS (show px + i * N + N ≤ src.length by omega),
      loadGroup_chunk hN dS (show px + stride + i * N + N ≤ src.length by omega),
      loadGroup_chunk hN dS (show px + stride * 2 + i * N + N ≤ src.length by omega),
      loadGroup_chunk hN dS (show px + stride * 3 + i * N + N ≤ src.length by omega),
      Option.bind_some, hst, accum, v, Nat.mul_zero, Nat.add_zero, Nat.mul_one]

/-- What `generate_weights` guarantees about the shape of the table for `out` output coordinates. -/
structure TableShape (fw : FilterWeights W) (out : Nat) : Prop where
  bounds_len : fw.bounds.length = out
  weights_len : fw.weights.length = out * fw.alignedSize
  aligned_pos : 0 < fw.alignedSize

/-- `i`-th kernel row of the table. -/
def FilterWeights.kernel (fw : FilterWeights W) (i : Nat) : List W :=
  (fw.weights.drop (i * fw.alignedSize)).take fw.alignedSize

theorem TableShape.zip_length {fw : FilterWeights W} {out : Nat} (h : TableShape fw out) :
    (fw.bounds.zip (chunksExact fw.alignedSize fw.weights)).length = out := by
  simp [h.bounds_len, h.weights_len, Nat.mul_div_cancel _ h.aligned_pos]

theorem TableShape.zip_get {fw : FilterWeights W} {out : Nat} (h : TableShape fw out) {i : Nat}
    (hi : i < out) : (fw.bounds.zip (chunksExact fw.alignedSize fw.weights))[i]? =
      some (fw.bound i, fw.kernel i) := by
  apply PicScale.zip_get
  · exact getElem?_eq_some_getD _ (by rw [h.bounds_len]; exact hi)
  · rw [chunksExact_get]
    · rfl
    · rw [h.weights_len, Nat.mul_div_cancel _ h.aligned_pos]; exact hi

theorem TableShape.kernel_length {fw : FilterWeights W} {out : Nat} (h : TableShape fw out) {i : Nat}
    (hi : i < out) : (fw.kernel i).length = fw.alignedSize := by
  apply chunk_length
  rw [h.weights_len, Nat.mul_div_cancel _ h.aligned_pos]; exact hi

theorem FilterWeights.kernel_getD (fw : FilterWeights W) (i k : Nat) (d : W)
    (hk : k < fw.alignedSize) : (fw.kernel i).getD k d = fw.weights.getD (i * fw.alignedSize + k) d := by
  simp only [FilterWeights.kernel, List.getD_eq_getElem?_getD]
  rw [chunk_get hk]

/-- Single row pass. -/
theorem rowPass_spec {N out : Nat} {pix : List W → Bounds → Option (List A)} {fin : A → S}
    {dst : List S} {fw : FilterWeights W} (hT : TableShape fw out) (hd : out * N ≤ dst.length)
    {val : Nat → Nat → A}
    (hpix : ∀ x, x < out → pix (fw.kernel x) (fw.bound x) = some ((List.range N).map (val x))) :
    ∃ r, rowPass N pix fin dst fw = some r ∧ r.length = dst.length ∧
      (∀ x c, x < out → c < N → r[x * N + c]? = some (fin (val x c))) ∧
      (∀ p, out * N ≤ p → r[p]? = dst[p]?) := by
  obtain ⟨r, h1, h2, h3, h4⟩ := updChunks_spec N (fun (_ : List S) (bw : Bounds × List W) => do
      let sums ← pix bw.2 bw.1
      some (sums.map fin)) (fw.bounds.zip (chunksExact fw.alignedSize fw.weights)) dst
    (fun i => ((List.range N).map (val i)).map fin)
    (by rw [hT.zip_length]; exact hd)
    (by
      intro i x hx
      have hi : i < out := by
        rw [← hT.zip_length]
        exact (List.getElem?_eq_some_iff.1 hx).1
      rw [hT.zip_get hi] at hx
      obtain rfl := Option.some.inj hx
      simp only [hpix i hi, Option.bind_eq_bind, Option.bind_some])
    (by simp)
  rw [hT.zip_length] at h3 h4
  refine ⟨r, h1, h2, ?_, h4⟩
  intro x c hx hc
  rw [h3 x c hx hc]
  simp [hc]

theorem updChunks4_spec (n : Nat) (f : β → Option (List α × List α × List α × List α)) :
    ∀ (xs : List β) (d0 d1 d2 d3 : List α) (g : Nat → Nat → List α),
      xs.length * n ≤ d0.length → xs.length * n ≤ d1.length → xs.length * n ≤ d2.length →
      xs.length * n ≤ d3.length →
      (∀ i (x : β), xs[i]? = some x → f x = some (g i 0, g i 1, g i 2, g i 3)) →
      (∀ i r, i < xs.length → (g i r).length = n) →
      ∃ r0 r1 r2 r3, updChunks4 n f d0 d1 d2 d3 xs = some (r0, r1, r2, r3) ∧
        ∀ q d r, ((q = 0 ∧ d = d0 ∧ r = r0) ∨ (q = 1 ∧ d = d1 ∧ r = r1) ∨
            (q = 2 ∧ d = d2 ∧ r = r2) ∨ (q = 3 ∧ d = d3 ∧ r = r3)) →
          r.length = d.length ∧
          (∀ i j, i < xs.length → j < n → r[i * n + j]? = (g i q)[j]?) ∧
          (∀ p, xs.length * n ≤ p → r[p]? = d[p]?)
  | [], d0, d1, d2, d3, g, _, _, _, _, _, _ => by
    refine ⟨d0, d1, d2, d3, rfl, ?_⟩
    intro q d r h
    rcases h with ⟨_, rfl, rfl⟩ | ⟨_, rfl, rfl⟩ | ⟨_, rfl, rfl⟩ | ⟨_, rfl, rfl⟩ <;> simp
  | x :: xs, d0, d1, d2, d3, g, l0, l1, l2, l3, hf, hg => by
    have e : (xs.length + 1) * n = xs.length * n + n := by ring
    simp only [List.length_cons, e] at l0 l1 l2 l3
    have h0 := hf 0 x (by simp)
    obtain ⟨r0, r1, r2, r3, hr, hs⟩ := updChunks4_spec n f xs (d0.drop n) (d1.drop n) (d2.drop n)
      (d3.drop n) (fun i => g (i + 1)) (by simp; omega) (by simp; omega) (by simp; omega)
      (by simp; omega) (by intro i y hy; exact hf (i + 1) y (by simpa using hy))
      (by intro i r hi; exact hg (i + 1) r (by simpa using hi))
    refine ⟨g 0 0 ++ r0, g 0 1 ++ r1, g 0 2 ++ r2, g 0 3 ++ r3, ?_, ?_⟩
    · have : ¬ (d0.length < n ∨ d1.length < n ∨ d2.length < n ∨ d3.length < n) := by omega
      simp [updChunks4, this, h0, hr]
    · have key : ∀ (q : Nat) (d r : List α), xs.length * n + n ≤ d.length →
          (r.length = (d.drop n).length ∧
          (∀ i j, i < xs.length → j < n → r[i * n + j]? = (g (i + 1) q)[j]?) ∧
          (∀ p, xs.length * n ≤ p → r[p]? = (d.drop n)[p]?)) →
          ((g 0 q ++ r).length = d.length ∧
          (∀ i j, i < (x :: xs).length → j < n → (g 0 q ++ r)[i * n + j]? = (g i q)[j]?) ∧
          (∀ p, (x :: xs).length * n ≤ p → (g 0 q ++ r)[p]? = d[p]?)) := by
        intro q d r hl ⟨a, b, c⟩
        have hg0 := hg 0 q (by simp)
        refine ⟨by simp [hg0, a]; omega, ?_, ?_⟩
        · intro i j hi hj
          cases i with
          | zero => simp [List.getElem?_append, hg0, hj]
          | succ i =>
            have hi' : i < xs.length := by simpa using hi
            have : (i + 1) * n + j = n + (i * n + j) := by rw [Nat.add_mul]; omega
            rw [this, List.getElem?_append_right (by omega), hg0, Nat.add_sub_cancel_left]
            exact b i j hi' hj
        · intro p hp
          have hp' : xs.length * n + n ≤ p := by simpa [Nat.add_mul] using hp
          rw [List.getElem?_append_right (by omega), hg0, c (p - n) (by omega), List.getElem?_drop]
          congr 1; omega
      intro q d r h
      rcases h with ⟨rfl, rfl, rfl⟩ | ⟨rfl, rfl, rfl⟩ | ⟨rfl, rfl, rfl⟩ | ⟨rfl, rfl, rfl⟩
      · exact key 0 _ _ l0 (hs 0 _ _ (by simp))
      · exact key 1 _ _ l1 (hs 1 _ _ (by simp))
      · exact key 2 _ _ l2 (hs 2 _ _ (by simp))
      · exact key 3 _ _ l3 (hs 3 _ _ (by simp))

/-- 4-row pass. -/
theorem rows4Pass_spec {N out : Nat}
    {pix4 : List W → Bounds → Option (List A × List A × List A × List A)} {fin : A → S}
    {dst : List S} {stride : Nat} {fw : FilterWeights W} (hT : TableShape fw out)
    (hd : dst.length = stride * 4) (hs : out * N ≤ stride)
    {val : Nat → Nat → Nat → A}
    (hpix : ∀ x, x < out → pix4 (fw.kernel x) (fw.bound x) =
      some ((List.range N).map (val x 0), (List.range N).map (val x 1), (List.range N).map (val x 2),
        (List.range N).map (val x 3))) :
    ∃ r, rows4Pass N pix4 fin dst stride fw = some r ∧ r.length = dst.length ∧
      (∀ q x c, q < 4 → x < out → c < N → r[q * stride + x * N + c]? = some (fin (val x q c))) ∧
      (∀ q p, q < 4 → out * N ≤ p → p < stride → r[q * stride + p]? = dst[q * stride + p]?) := by
  obtain ⟨d0, s0⟩ : ∃ d, slice? dst (0) (stride) = some d := ⟨_, slice?_eq_some (by omega) (by omega)⟩
  obtain ⟨d1, s1⟩ : ∃ d, slice? dst (stride) (stride * 2) = some d := ⟨_, slice?_eq_some (by omega) (by omega)⟩
  obtain ⟨d2, s2⟩ : ∃ d, slice? dst (stride * 2) (stride * 3) = some d := ⟨_, slice?_eq_some (by omega) (by omega)⟩
  obtain ⟨d3, s3⟩ : ∃ d, slice? dst (stride * 3) (dst.length) = some d := ⟨_, slice?_eq_some (by omega) (by omega)⟩
  have l0 := slice?_length s0
  have l1 := slice?_length s1
  have l2 := slice?_length s2
  have l3 := slice?_length s3
  obtain ⟨r0, r1, r2, r3, hr, hsp⟩ := updChunks4_spec N (fun bw : Bounds × List W => do
      let (s0, s1, s2, s3) ← pix4 bw.2 bw.1
      some (s0.map fin, s1.map fin, s2.map fin, s3.map fin))
    (fw.bounds.zip (chunksExact fw.alignedSize fw.weights)) d0 d1 d2 d3
    (fun i q => ((List.range N).map (val i q)).map fin)
    (by rw [hT.zip_length, l0]; omega) (by rw [hT.zip_length, l1]; omega)
    (by rw [hT.zip_length, l2]; omega) (by rw [hT.zip_length, l3]; omega)
    (by
      intro i x hx
      have hi : i < out := by
        rw [← hT.zip_length]
        exact (List.getElem?_eq_some_iff.1 hx).1
      rw [hT.zip_get hi] at hx
      obtain rfl := Option.some.inj hx
      simp only [hpix i hi, Option.bind_eq_bind, Option.bind_some])
    (by simp)
  rw [hT.zip_length] at hsp
  have a0 := hsp 0 d0 r0 (by simp)
  have a1 := hsp 1 d1 r1 (by simp)
  have a2 := hsp 2 d2 r2 (by simp)
  have a3 := hsp 3 d3 r3 (by simp)
  have m0 : r0.length = stride := by omega
  have m1 : r1.length = stride := by omega
  have m2 : r2.length = stride := by omega
  have m3 : r3.length = stride := by omega
  refine ⟨r0 ++ r1 ++ r2 ++ r3, ?_, by simp; omega, ?_, ?_⟩
  · unfold rows4Pass
    rw [s0, s1, s2, s3]
    simp only [Option.bind_eq_bind, Option.bind_some] at hr ⊢
    rw [hr]
    simp
  all_goals
    have pick : ∀ q p, q < 4 → p < stride → (r0 ++ r1 ++ r2 ++ r3)[q * stride + p]? =
        (if q = 0 then r0 else if q = 1 then r1 else if q = 2 then r2 else r3)[p]? := by
      intro q p hq hp
      have : q = 0 ∨ q = 1 ∨ q = 2 ∨ q = 3 := by omega
      rcases this with rfl | rfl | rfl | rfl
      · simp [List.getElem?_append, m0, hp]
      · rw [List.append_assoc, List.getElem?_append_left (by simp; omega),
          List.getElem?_append_right (by omega), m0]
        simp
      · rw [List.append_assoc, List.getElem?_append_right (by simp; omega),
          List.getElem?_append_left (by simp; omega)]
        simp only [List.length_append, m0, m1]
        congr 1; omega
      · rw [List.getElem?_append_right (by simp; omega)]
        simp only [List.length_append, m0, m1, m2]
        congr 1; omega
  · intro q x c hq hx hc
    have hlt : x * N + c < stride := by
      have : x * N + N ≤ out * N := by
        have := Nat.mul_le_mul_right N (show x + 1 ≤ out from hx)
        rw [Nat.add_mul] at this; omega
      omega
    rw [Nat.add_assoc, pick q _ hq hlt]
    have : q = 0 ∨ q = 1 ∨ q = 2 ∨ q = 3 := by omega
    rcases this with rfl | rfl | rfl | rfl
    · simp only [if_true]; rw [a0.2.1 x c hx hc]; simp [hc]
    · simp only [if_true, one_ne_zero, if_false]; rw [a1.2.1 x c hx hc]; simp [hc]
    · simp; rw [a2.2.1 x c hx hc]; simp [hc]
    · simp; rw [a3.2.1 x c hx hc]; simp [hc]
  · intro q p hq hp hps
    rw [pick q _ hq hps]
    have : q = 0 ∨ q = 1 ∨ q = 2 ∨ q = 3 := by omega
    rcases this with rfl | rfl | rfl | rfl
    · simp only [if_true]; rw [a0.2.2 p hp, slice?_get s0 p (by omega)]; simp
    · simp only [if_true, one_ne_zero, if_false]; rw [a1.2.2 p hp, slice?_get s1 p (by omega)]; simp
    · simp; rw [a2.2.2 p hp, slice?_get s2 p (by omega)]; congr 1; omega
    · simp; rw [a3.2.2 p hp, slice?_get s3 p (by omega)]; congr 1; omega

/-- A vertical block body that writes `val p` at `p ∈ [x, x + width)` and nothing else. -/
def BlockOK (total width : Nat) (body : Nat → List α → Option (List α)) (val : Nat → α) : Prop :=
  ∀ x (dst : List α), dst.length = total → x + width ≤ total →
    ∃ r, body x dst = some r ∧ r.length = total ∧
      (∀ p, x ≤ p → p < x + width → r[p]? = some (val p)) ∧
      (∀ p, (p < x ∨ x + width ≤ p) → r[p]? = dst[p]?)

theorem whileBlocks_spec {margin step total : Nat} {body : Nat → List α → Option (List α)}
    {val : Nat → α} (hstep : 1 ≤ step) (hm : step ≤ margin + 1)
    (hb : BlockOK total step body val) :
    ∀ fuel cx (dst : List α), dst.length = total → cx ≤ total → total ≤ fuel + cx →
      (∀ p, p < cx → dst[p]? = some (val p)) →
      ∃ cx' r, whileBlocks margin step total body fuel cx dst = some (cx', r) ∧
        r.length = total ∧ cx ≤ cx' ∧ cx' ≤ total ∧ total ≤ cx' + margin ∧
        (∀ p, p < cx' → r[p]? = some (val p)) := by
  intro fuel
  induction fuel with
  | zero =>
    intro cx dst hl hc hf hv
    exact ⟨cx, dst, rfl, hl, le_refl _, hc, by omega, hv⟩
  | succ fuel ih =>
    intro cx dst hl hc hf hv
    unfold whileBlocks
    by_cases h : cx + margin < total
    · obtain ⟨r, h1, h2, h3, h4⟩ := hb cx dst hl (by omega)
      rw [if_pos h, h1]
      simp only [Option.bind_eq_bind, Option.bind_some]
      obtain ⟨cx', r', e1, e2, e3, e4, e5, e6⟩ := ih (cx + step) r h2 (by omega) (by omega) (by
        intro p hp
        by_cases hpc : p < cx
        · rw [h4 p (Or.inl hpc)]; exact hv p hpc
        · exact h3 p (by omega) hp)
      exact ⟨cx', r', e1, e2, by omega, e4, e5, e6⟩
    · rw [if_neg h]
      exact ⟨cx, dst, rfl, hl, le_refl _, hc, by omega, hv⟩

end PicScale
