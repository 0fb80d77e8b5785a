import Verif.Lemmas.Ar30

namespace PicScale

open Finset

/-- Accumulator of component `c` of one output pixel of the horizontal pass over `n` taps. -/
def hSum30 (F : Fmt30) (src : List ℕ) (base : ℕ) (w : List ℤ) (start n c : ℕ) : ℤ :=
  i32 (16384 + Spec.wsum n (fun k => w.getD k 0)
    (fun k => ((raw30 F (fun i => src.getD (base + (start + k) * 4 + i) 0) c : ℕ) : ℤ)))

theorem wsum_succ (n : ℕ) (w p : ℕ → ℤ) : Spec.wsum (n + 1) w p = Spec.wsum n w p + w n * p n := by
  simp [Spec.wsum, sum_range_succ]

theorem unrolled30_eq (F : Fmt30) {n : ℕ} {src : List ℕ} {base : ℕ} {w : List ℤ} {b : Bounds} (hn : 1 ≤ n)
    (hsrc : base + (b.start + n) * 4 ≤ src.length) (hw : n ≤ w.length) :
    unrolled30 F n src base w b = some ((List.range 4).map (hSum30 F src base w b.start n)) := by
  unfold unrolled30
  have e : base + (b.start + n) * 4 = b.start * 4 + base + n * 4 := by ring
  obtain ⟨s, hs⟩ : ∃ s, slice? src (b.start * 4 + base) (b.start * 4 + base + n * 4) = some s :=
    ⟨_, slice?_eq_some (by omega) (by omega)⟩
  obtain ⟨ws, hws⟩ : ∃ ws, slice? w 0 n = some ws := ⟨_, slice?_eq_some (by omega) (by omega)⟩
  have hl := slice?_length hs
  have hwk : ∀ k, k < n → ws[k]? = some (w.getD k 0) := by
    intro k hk
    rw [slice?_get hws k (by omega), Nat.zero_add]
    exact getElem?_eq_some_getD 0 (by omega)
  have hld : ∀ k, k < n → load30 F s (k * 4) = some ((List.range 4).map fun c =>
      ((raw30 F (fun i => src.getD (base + (b.start + k) * 4 + i) 0) c : ℕ) : ℤ)) := by
    intro k hk
    rw [load30_eq F (by omega)]
    congr 1
    apply List.map_congr_left
    intro c _
    congr 1
    apply raw30_congr
    intro i hi
    rw [slice_getD hs _ _ (by omega)]
    congr 1
    omega
  have h0 := hld 0 (by omega)
  rw [Nat.zero_mul] at h0
  simp only [hs, hws, hwk 0 (by omega), h0, Option.bind_eq_bind, Option.bind_some]
  have hfold := foldlM_take (fun (acc : List ℤ) (k : ℕ) => do
      let w ← ws[k + 1]?
      let p ← load30 F s ((k + 1) * 4)
      some (cgAdd acc (cgMul p w))) (List.range (n - 1)) (fun i => i)
    (fun m => (List.range 4).map fun c => i32 (Spec.wsum (m + 1) (fun k => w.getD k 0)
      (fun k => ((raw30 F (fun i => src.getD (base + (b.start + k) * 4 + i) 0) c : ℕ) : ℤ)))) (n - 1)
    (fun i hi => List.getElem?_range hi)
    (by
      intro i hi
      simp only [hwk (i + 1) (by omega), hld (i + 1) (by omega), Option.bind_eq_bind, Option.bind_some,
        cgMul_map, cgAdd_map, Option.some.injEq]
      apply List.map_congr_left
      intro c _
      rw [i32_add_i32, i32_i32_add, wsum_succ (i + 1)]
      congr 1; ring)
  rw [List.take_of_length_le (by simp)] at hfold
  have hinit : cgMul ((List.range 4).map fun c => ((raw30 F (fun i => src.getD (base + (b.start + 0) * 4 + i) 0) c : ℕ) : ℤ))
      (w.getD 0 0) = (List.range 4).map fun c => i32 (Spec.wsum (0 + 1) (fun k => w.getD k 0)
      (fun k => ((raw30 F (fun i => src.getD (base + (b.start + k) * 4 + i) 0) c : ℕ) : ℤ))) := by
    rw [cgMul_map]
    apply List.map_congr_left
    intro c _
    simp only [Spec.wsum, zero_add, sum_range_one]
    congr 1; ring
  simp only [Option.bind_eq_bind] at hfold
  rw [hinit, hfold]
  simp only [Option.bind_some, replicate_eq_map_range, cgAdd_map, Option.some.injEq, ROUNDING_CONST]
  apply List.map_congr_left
  intro c _
  rw [i32_add_i32, hSum30, show n - 1 + 1 = n by omega]

/-- Number of taps the single row handler really uses. -/
def taps1 (n : ℕ) : ℕ := if n = 2 ∨ n = 3 ∨ n = 4 ∨ n = 6 then n else n / 4

theorem accum30 (F : Fmt30) (src : List ℕ) (base start : ℕ) (w : List ℤ) (n c : ℕ) :
    accum (fun a v k => i32 (a + i32 (v * k))) ROUNDING_CONST
      (fun k => ((raw30 F (fun i => src.getD (base + (start + k) * 4 + i) 0) c : ℕ) : ℤ)) (fun k => w.getD k 0) n =
      hSum30 F src base w start n c := by
  rw [accum_fixed _ (by decide)]; rfl

theorem row30Sums_eq (F : Fmt30) {src : List ℕ} {w : List ℤ} {b : Bounds} (hn : 1 ≤ b.size)
    (hsrc : (b.start + b.size) * 4 ≤ src.length) (hw : b.size ≤ w.length) :
    row30Sums F src w b = some ((List.range 4).map (hSum30 F src 0 w b.start (taps1 b.size))) := by
  unfold row30Sums taps1
  split_ifs with h
  · exact unrolled30_eq F hn (by omega) hw
  · obtain ⟨s, hs⟩ : ∃ s, slice? src (b.start * 4) (b.start * 4 + b.size) = some s :=
      ⟨_, slice?_eq_some (by omega) (by omega)⟩
    have hl := slice?_length hs
    have hsl : s.length / 4 = b.size / 4 := by rw [hl]; congr 1; omega
    simp only [hs, Option.bind_eq_bind, Option.bind_some]
    have hlen : (w.zip (chunksExact 4 s)).length = b.size / 4 := by
      rw [List.length_zip, chunksExact_length, hsl]; omega
    have ht : (w.zip (chunksExact 4 s)).take b.size = (w.zip (chunksExact 4 s)).take (b.size / 4) := by
      rw [List.take_of_length_le (by omega), List.take_of_length_le (by omega)]
    have h0 : List.replicate 4 ROUNDING_CONST = (List.range 4).map fun c =>
        accum (fun a v k => i32 (a + i32 (v * k))) ROUNDING_CONST
          (fun k => ((raw30 F (fun i => src.getD (0 + (b.start + k) * 4 + i) 0) c : ℕ) : ℤ)) (fun k => w.getD k 0) 0 := by
      simp [accum, List.map_const']
    rw [ht, h0]
    rw [foldlM_take _ _ (fun k => (w.getD k 0, (s.drop (k * 4)).take 4)) (fun n => (List.range 4).map fun c =>
        accum (fun a v k => i32 (a + i32 (v * k))) ROUNDING_CONST
          (fun k => ((raw30 F (fun i => src.getD (0 + (b.start + k) * 4 + i) 0) c : ℕ) : ℤ)) (fun k => w.getD k 0) n)
      (b.size / 4) ?_ ?_]
    · simp only [accum30]
    · intro i hi
      exact zip_get (getElem?_eq_some_getD 0 (by omega)) (chunksExact_get _ _ _ (by omega))
    · intro i hi
      rw [load30_chunk F (by omega)]
      simp only [Option.bind_some, cgMul_map, cgAdd_map, accum, Option.some.injEq]
      apply List.map_congr_left
      intro c _
      congr 3
      refine congrArg (fun t : ℕ => (t : ℤ) * w.getD i 0) ?_
      apply raw30_congr
      intro j hj
      rw [slice_getD hs _ _ (by omega)]
      congr 1; omega

theorem rows4_30Sums_eq (F : Fmt30) {src : List ℕ} {stride : ℕ} {w : List ℤ} {b : Bounds} (hn : 1 ≤ b.size)
    (hsrc : stride * 3 + (b.start + b.size) * 4 ≤ src.length) (hw : b.size ≤ w.length) :
    rows4_30Sums F src stride w b = some ((List.range 4).map (hSum30 F src (stride * 0) w b.start b.size),
      (List.range 4).map (hSum30 F src (stride * 1) w b.start b.size),
      (List.range 4).map (hSum30 F src (stride * 2) w b.start b.size),
      (List.range 4).map (hSum30 F src (stride * 3) w b.start b.size)) := by
  unfold rows4_30Sums
  split_ifs with h
  · rw [unrolled30_eq F hn (by omega) hw, unrolled30_eq F hn (by omega) hw, unrolled30_eq F hn (by omega) hw,
      unrolled30_eq F hn (by omega) hw]
    simp
  · have hs0 := slice?_eq_some (l := src) (a := b.start * 4) (b := b.start * 4 + b.size * 4) (by omega) (by omega)
    have hs1 := slice?_eq_some (l := src) (a := b.start * 4 + stride) (b := b.start * 4 + stride + b.size * 4) (by omega) (by omega)
    have hs2 := slice?_eq_some (l := src) (a := b.start * 4 + stride * 2) (b := b.start * 4 + stride * 2 + b.size * 4) (by omega) (by omega)
    have hs3 := slice?_eq_some (l := src) (a := b.start * 4 + stride * 3) (b := b.start * 4 + stride * 3 + b.size * 4) (by omega) (by omega)
    dsimp only
    rw [hs0, hs1, hs2, hs3]
    simp only [Option.bind_eq_bind, Option.bind_some]
    let v : ℕ → ℕ → List ℤ := fun n r => (List.range 4).map fun c =>
        accum (fun a v k => i32 (a + i32 (v * k))) ROUNDING_CONST
          (fun k => ((raw30 F (fun i => src.getD (stride * r + (b.start + k) * 4 + i) 0) c : ℕ) : ℤ)) (fun k => w.getD k 0) n
    have h0 : ∀ r, List.replicate 4 ROUNDING_CONST = v 0 r := by
      intro r; simp [v, accum, List.map_const']
    have hinit : (List.replicate 4 ROUNDING_CONST, List.replicate 4 ROUNDING_CONST, List.replicate 4 ROUNDING_CONST,
        List.replicate 4 ROUNDING_CONST) = (v 0 0, v 0 1, v 0 2, v 0 3) := by
      rw [← h0, ← h0, ← h0, ← h0]
    rw [hinit]
    rw [foldlM_take _ _ (fun k => ((((w.getD k 0, (src.drop (b.start * 4 + k * 4)).take 4),
        (src.drop (b.start * 4 + stride + k * 4)).take 4), (src.drop (b.start * 4 + stride * 2 + k * 4)).take 4),
        (src.drop (b.start * 4 + stride * 3 + k * 4)).take 4))
      (fun n => (v n 0, v n 1, v n 2, v n 3)) b.size ?_ ?_]
    · simp only [v, accum30]
    · intro i hi
      exact zip_get (zip_get (zip_get (zip_get (getElem?_eq_some_getD 0 (by omega))
        (chunk_of_slice hs0 hi (by omega))) (chunk_of_slice hs1 hi (by omega)))
        (chunk_of_slice hs2 hi (by omega))) (chunk_of_slice hs3 hi (by omega))
    · intro i hi
      have hv : ∀ r q, q = b.start * 4 + stride * r + i * 4 → 
          cgAdd (v i r) (cgMul ((List.range 4).map fun c => ((raw30 F (fun j => src.getD (q + j) 0) c : ℕ) : ℤ))
            (w.getD i 0)) = v (i + 1) r := by
        intro r q hq
        simp only [v, cgMul_map, cgAdd_map, accum]
        apply List.map_congr_left
        intro c _
        congr 3
        refine congrArg (fun t : ℕ => (t : ℤ) * w.getD i 0) ?_
        apply raw30_congr
        intro j hj
        congr 1; rw [hq]; ring
      simp only [load30_chunk F (show b.start * 4 + i * 4 + 4 ≤ src.length by omega),
        load30_chunk F (show b.start * 4 + stride + i * 4 + 4 ≤ src.length by omega),
        load30_chunk F (show b.start * 4 + stride * 2 + i * 4 + 4 ≤ src.length by omega),
        load30_chunk F (show b.start * 4 + stride * 3 + i * 4 + 4 ≤ src.length by omega), Option.bind_some]
      rw [hv 0 _ (by ring), hv 1 _ (by ring), hv 2 _ (by ring), hv 3 _ (by ring)]

theorem row30_spec (F : Fmt30) {out : ℕ} {src dst : List ℕ} {fw : FilterWeights ℤ} (hT : TableShape fw out)
    (hd : out * 4 ≤ dst.length) {val : ℕ → ℕ → ℤ}
    (hpix : ∀ x, x < out → row30Sums F src (fw.kernel x) (fw.bound x) = some ((List.range 4).map (val x))) :
    ∃ r, row30 F src dst fw = some r ∧ r.length = dst.length ∧
      (∀ x c, x < out → c < 4 → r[x * 4 + c]? = some (enc30 F (val x) c)) ∧
      (∀ p, out * 4 ≤ p → r[p]? = dst[p]?) := by
  obtain ⟨r, h1, h2, h3, h4⟩ := updChunks_spec 4 (fun (_ : List ℕ) (bw : Bounds × List ℤ) => do
      let sums ← row30Sums F src bw.2 bw.1
      some (store30 F sums)) (fw.bounds.zip (chunksExact fw.alignedSize fw.weights)) dst
    (fun i => (List.range 4).map (enc30 F (val i)))
    (by rw [hT.zip_length]; exact hd)
    (by
      intro i x hx
      have hi : i < out := by
        rw [← hT.zip_length]
        exact (List.getElem?_eq_some_iff.1 hx).1
      rw [hT.zip_get hi] at hx
      obtain rfl := Option.some.inj hx
      simp only [hpix i hi, Option.bind_eq_bind, Option.bind_some, store30_eq])
    (by simp)
  rw [hT.zip_length] at h3 h4
  refine ⟨r, h1, h2, ?_, h4⟩
  intro x c hx hc
  rw [h3 x c hx hc]
  simp [hc]

/-- Four rows of a buffer handled by `updChunks4` -/
theorem rows4_generic {N out : ℕ} {W : Type}
    {g : Bounds × List W → Option (List ℕ × List ℕ × List ℕ × List ℕ)}
    {dst : List ℕ} {stride : ℕ} {fw : FilterWeights W} (hT : TableShape fw out)
    (hd : dst.length = stride * 4) (hs : out * N ≤ stride) {val : ℕ → ℕ → ℕ → ℕ}
    (hpix : ∀ x, x < out → g (fw.bound x, fw.kernel x) =
      some ((List.range N).map (val x 0), (List.range N).map (val x 1), (List.range N).map (val x 2),
        (List.range N).map (val x 3))) :
    ∃ r, (do
      let row0 ← slice? dst 0 stride
      let row1 ← slice? dst stride (stride * 2)
      let row2 ← slice? dst (stride * 2) (stride * 3)
      let row3 ← slice? dst (stride * 3) dst.length
      let (r0, r1, r2, r3) ← updChunks4 N g row0 row1 row2 row3
        (fw.bounds.zip (chunksExact fw.alignedSize fw.weights))
      some (r0 ++ r1 ++ r2 ++ r3)) = some r ∧ r.length = dst.length ∧
      (∀ q x c, q < 4 → x < out → c < N → r[q * stride + x * N + c]? = some (val x q c)) ∧
      (∀ q p, q < 4 → out * N ≤ p → p < stride → r[q * stride + p]? = dst[q * stride + p]?) := by
  -- reduce to the pass with identity narrowing
  obtain ⟨r, h1, h2⟩ := rows4Pass_spec (S := ℕ) (A := ℕ) (N := N) (out := out)
    (pix4 := fun w b => g (b, w)) (fin := id) (dst := dst) (stride := stride) (fw := fw) hT hd hs (val := val)
    (fun x hx => hpix x hx)
  refine ⟨r, ?_, h2⟩
  rw [← h1]
  unfold rows4Pass
  have : g = (fun bw : Bounds × List W => do
      let (s0, s1, s2, s3) ← g (bw.1, bw.2)
      some (s0.map id, s1.map id, s2.map id, s3.map id)) := by
    funext bw
    cases h : g (bw.1, bw.2) with
    | none => simp
    | some v => simp
  conv_lhs => rw [this]

theorem rows4_30_spec (F : Fmt30) {out : ℕ} {src dst : List ℕ} {ss stride : ℕ} {fw : FilterWeights ℤ}
    (hT : TableShape fw out) (hd : dst.length = stride * 4) (hs : out * 4 ≤ stride) {val : ℕ → ℕ → ℕ → ℤ}
    (hpix : ∀ x, x < out → rows4_30Sums F src ss (fw.kernel x) (fw.bound x) =
      some ((List.range 4).map (val x 0), (List.range 4).map (val x 1), (List.range 4).map (val x 2),
        (List.range 4).map (val x 3))) :
    ∃ r, rows4_30 F src ss dst stride fw = some r ∧ r.length = dst.length ∧
      (∀ q x c, q < 4 → x < out → c < 4 → r[q * stride + x * 4 + c]? = some (enc30 F (val x q) c)) ∧
      (∀ q p, q < 4 → out * 4 ≤ p → p < stride → r[q * stride + p]? = dst[q * stride + p]?) := by
  exact rows4_generic (N := 4) (val := fun x q => enc30 F (val x q)) hT hd hs (g := fun bw => do
      let (s0, s1, s2, s3) ← rows4_30Sums F src ss bw.2 bw.1
      some (store30 F s0, store30 F s1, store30 F s2, store30 F s3)) (by
    intro x hx
    simp only [hpix x hx, Option.bind_eq_bind, Option.bind_some, store30_eq])

end PicScale
