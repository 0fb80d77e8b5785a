import Verif.Lemmas.FixedPass
import Verif.Model.Floating
import Verif.SpecFloat

namespace PicScale

open Spec

variable {S A : Type}

theorem gMul_map (o : FloatOps S A) (N : ℕ) (f : ℕ → A) (w : ℚ) :
    o.gMul ((List.range N).map f) w = (List.range N).map fun c => o.mul (f c) (o.weight w) := by
  simp [FloatOps.gMul, Function.comp_def]

theorem gMla_map (o : FloatOps S A) (N : ℕ) (f g : ℕ → A) (w : ℚ) :
    o.gMla ((List.range N).map f) ((List.range N).map g) w =
      (List.range N).map fun c => o.mla (f c) (g c) (o.weight w) := zipWith_map_range N _ f g

theorem accum_chain (mla : A → A → A → A) (i0 : A) (p : ℕ → A) (wt : ℚ → A) (w : ℕ → ℚ) (n : ℕ) :
    accum (fun a v k => mla a v (wt k)) i0 p w n = chain mla i0 p (fun k => wt (w k)) n := by
  induction n with
  | zero => rfl
  | succ n ih => simp only [accum, chain, ih]

/-- What the handlers compute for a window of `n` terms: the specially coded sizes start with a
product, the others with zero. -/
def floatVal (o : FloatOps S A) (n : ℕ) (p w : ℕ → A) : A :=
  if n = 2 ∨ n = 3 ∨ n = 4 ∨ n = 6 then leftSum o.mul o.mla p w n else chain o.mla o.zero p w n

theorem chain_congr {mla : A → A → A → A} {i0 : A} {p p' w w' : ℕ → A} {n : ℕ}
    (hp : ∀ k, k < n → p k = p' k) (hw : ∀ k, k < n → w k = w' k) :
    chain mla i0 p w n = chain mla i0 p' w' n := by
  induction n with
  | zero => rfl
  | succ n ih =>
    simp only [chain]
    rw [ih (fun k hk => hp k (by omega)) (fun k hk => hw k (by omega)), hp n (by omega), hw n (by omega)]

theorem leftSum_congr {mul : A → A → A} {mla : A → A → A → A} {p p' w w' : ℕ → A} {n : ℕ} (hn : 1 ≤ n)
    (hp : ∀ k, k < n → p k = p' k) (hw : ∀ k, k < n → w k = w' k) :
    leftSum mul mla p w n = leftSum mul mla p' w' n := by
  unfold leftSum
  rw [hp 0 (by omega), hw 0 (by omega)]
  exact chain_congr (fun k hk => hp _ (by omega)) (fun k hk => hw _ (by omega))

theorem floatVal_congr {o : FloatOps S A} {p p' w w' : ℕ → A} {n : ℕ}
    (hp : ∀ k, k < n → p k = p' k) (hw : ∀ k, k < n → w k = w' k) :
    floatVal o n p w = floatVal o n p' w' := by
  unfold floatVal
  split_ifs with h
  · exact leftSum_congr (by omega) hp hw
  · exact chain_congr hp hw

/-- If adding a product to zero is that product, the start makes no difference. -/
theorem floatVal_leftSum {o : FloatOps S A} (law : ∀ a b, o.mla o.zero a b = o.mul a b) {p w : ℕ → A}
    {n : ℕ} (hn : 1 ≤ n) : floatVal o n p w = leftSum o.mul o.mla p w n := by
  unfold floatVal
  split_ifs with h
  · rfl
  · unfold leftSum
    obtain ⟨m, rfl⟩ : ∃ m, n = m + 1 := ⟨n - 1, by omega⟩
    rw [Nat.add_sub_cancel]
    clear h hn
    induction m with
    | zero => simp [chain, law]
    | succ m ih =>
      rw [chain, ih]
      rfl

/-- Value of one output sample of the horizontal pass, before conversion to the sample type. -/
def hSumF (o : FloatOps S A) (d0 : S) (N : ℕ) (src : List S) (base : ℕ) (w : List ℚ) (b : Bounds) (c : ℕ) : A :=
  floatVal o b.size (fun k => o.conv (src.getD (base + (b.start + k) * N + c) d0))
    (fun k => o.weight (w.getD k 0))

theorem rowPixelSumsF_eq (o : FloatOps S A) (d0 : S) {N : ℕ} (hN : 1 ≤ N ∧ N ≤ 4) {src : List S} {base : ℕ}
    {w : List ℚ} {b : Bounds} (hsrc : base + (b.start + b.size) * N ≤ src.length) (hw : b.size ≤ w.length) :
    rowPixelSumsF o N src base w b = some ((List.range N).map (hSumF o d0 N src base w b)) := by
  have hb : b.start * N + base + b.size * N ≤ src.length := by
    have : (b.start + b.size) * N = b.start * N + b.size * N := by ring
    omega
  have key : ∀ m, b.size = m → ∃ s, slice? src (b.start * N + base) (b.start * N + base + m * N) = some s ∧
      (∀ k, k < m → loadGroup o.conv N s (N * k) = some ((List.range N).map fun c =>
        o.conv (src.getD (base + (b.start + k) * N + c) d0))) ∧
      (∃ ws, slice? w 0 m = some ws ∧ ∀ k, k < m → ws[k]? = some (w.getD k 0)) := by
    intro m hm
    subst hm
    obtain ⟨s, hs⟩ : ∃ s, slice? src (b.start * N + base) (b.start * N + base + b.size * N) = some s :=
      ⟨_, slice?_eq_some (by omega) (by omega)⟩
    obtain ⟨ws, hws⟩ : ∃ ws, slice? w 0 b.size = some ws := ⟨_, slice?_eq_some (by omega) (by omega)⟩
    have hl := slice?_length hs
    refine ⟨s, hs, ?_, ws, hws, ?_⟩
    · intro k hk
      have hkm : N * k + N ≤ b.size * N := by
        have := Nat.mul_le_mul_right N (show k + 1 ≤ b.size from hk)
        nlinarith
      rw [loadGroup_eq hN d0 (by omega)]
      congr 1
      apply List.map_congr_left
      intro c hc
      have hc : c < N := by simpa using hc
      rw [slice_getD hs _ _ (by omega)]
      congr 2
      ring
    · intro k hk
      rw [slice?_get hws k (by omega), Nat.zero_add]
      exact getElem?_eq_some_getD 0 (by omega)
  unfold rowPixelSumsF
  dsimp only
  split_ifs with h2 h3 h4 h6
  · obtain ⟨s, e1, e2, ws, e3, e4⟩ := key 2 h2
    have l0 := e2 0 (by omega)
    have l1 := e2 1 (by omega)
    simp only [Nat.mul_zero, Nat.mul_one] at l0 l1
    simp only [e1, e3, e4 0 (by omega), e4 1 (by omega), l0, l1, Option.bind_eq_bind, Option.bind_some, gMul_map, gMla_map]
    simp [hSumF, floatVal, h2, leftSum, chain]
  · obtain ⟨s, e1, e2, ws, e3, e4⟩ := key 3 h3
    have l0 := e2 0 (by omega)
    have l1 := e2 1 (by omega)
    have l2 := e2 2 (by omega)
    simp only [Nat.mul_zero, Nat.mul_one] at l0 l1
    simp only [e1, e3, e4 0 (by omega), e4 1 (by omega), e4 2 (by omega), l0, l1, l2, Option.bind_eq_bind,
      Option.bind_some, gMul_map, gMla_map]
    simp [hSumF, floatVal, h3, leftSum, chain]
  · obtain ⟨s, e1, e2, ws, e3, e4⟩ := key 4 h4
    have l0 := e2 0 (by omega)
    have l1 := e2 1 (by omega)
    have l2 := e2 2 (by omega)
    have l3 := e2 3 (by omega)
    simp only [Nat.mul_zero, Nat.mul_one] at l0 l1
    simp only [e1, e3, e4 0 (by omega), e4 1 (by omega), e4 2 (by omega), e4 3 (by omega), l0, l1, l2, l3,
      Option.bind_eq_bind, Option.bind_some, gMul_map, gMla_map]
    simp [hSumF, floatVal, h4, leftSum, chain]
  · obtain ⟨s, e1, e2, ws, e3, e4⟩ := key 6 h6
    have l0 := e2 0 (by omega)
    have l1 := e2 1 (by omega)
    have l2 := e2 2 (by omega)
    have l3 := e2 3 (by omega)
    have l4 := e2 4 (by omega)
    have l5 := e2 5 (by omega)
    simp only [Nat.mul_zero, Nat.mul_one] at l0 l1
    simp (maxSteps := 10000000) only [e1, e3, e4 0 (by omega), e4 1 (by omega), e4 2 (by omega), e4 3 (by omega), e4 4 (by omega),
      e4 5 (by omega), l0, l1, l2, l3, l4, l5, Option.bind_eq_bind, Option.bind_some, gMul_map, gMla_map]
    simp [hSumF, floatVal, h6, leftSum, chain]
  · rw [groupFold_eq hN (st := fun a v k => o.mla a v (o.weight k)) (fun f g w => gMla_map o N f g w) d0 0 hb hw]
    congr 1
    apply List.map_congr_left
    intro c _
    rw [accum_chain, hSumF, floatVal, if_neg (by omega)]
    apply chain_congr
    · intro k _
      rw [show b.start * N + base + k * N + c = base + (b.start + k) * N + c by ring]
    · intro k _; rfl

theorem rows4PixelSumsF_eq (o : FloatOps S A) (d0 : S) {N : ℕ} (hN : 1 ≤ N ∧ N ≤ 4) {src : List S} {stride : ℕ}
    {w : List ℚ} {b : Bounds} (hsrc : stride * 3 + (b.start + b.size) * N ≤ src.length) (hw : b.size ≤ w.length) :
    rows4PixelSumsF o N src stride w b = some ((List.range N).map (hSumF o d0 N src (stride * 0) w b),
      (List.range N).map (hSumF o d0 N src (stride * 1) w b), (List.range N).map (hSumF o d0 N src (stride * 2) w b),
      (List.range N).map (hSumF o d0 N src (stride * 3) w b)) := by
  unfold rows4PixelSumsF
  split_ifs with h
  · rw [rowPixelSumsF_eq o d0 hN (by omega) hw, rowPixelSumsF_eq o d0 hN (by omega) hw,
      rowPixelSumsF_eq o d0 hN (by omega) hw, rowPixelSumsF_eq o d0 hN (by omega) hw]
    simp
  · have hb : b.start * N + stride * 3 + b.size * N ≤ src.length := by
      have : (b.start + b.size) * N = b.start * N + b.size * N := by ring
      omega
    rw [groupFold4_eq hN (st := fun a v k => o.mla a v (o.weight k)) (fun f g w => gMla_map o N f g w) d0 0 hb hw]
    have : ∀ r c, accum (fun a v k => o.mla a v (o.weight k)) o.zero
        (fun k => o.conv (src.getD (b.start * N + stride * r + k * N + c) d0))
        (fun k => w.getD k 0) b.size = hSumF o d0 N src (stride * r) w b c := by
      intro r c
      rw [accum_chain, hSumF, floatVal, if_neg h]
      apply chain_congr
      · intro k _
        rw [show b.start * N + stride * r + k * N + c = stride * r + (b.start + k) * N + c by ring]
      · intro k _; rfl
    simp only [this]

/-- Value of one output sample of the vertical pass; `p` is the position inside the row. -/
def vSumF (o : FloatOps S A) (d0 : S) (src : List S) (stride : ℕ) (w : List ℚ) (b : Bounds) (p : ℕ) : A :=
  floatVal o b.size (fun k => o.conv (src.getD ((b.start + k) * stride + p) d0)) (fun k => o.weight (w.getD k 0))

theorem columnSumsF_eq (o : FloatOps S A) (d0 : S) {N R : ℕ} (hN : 1 ≤ N ∧ N ≤ 4) {src : List S} {stride : ℕ}
    {w : List ℚ} {b : Bounds} {x r : ℕ} (hr : r < R)
    (hsrc : ∀ k, k < b.size → stride * (b.start + k) + x + N * R ≤ src.length) (hw : b.size ≤ w.length) :
    columnSumsF o N R src stride w b x r =
      some ((List.range N).map fun c => vSumF o d0 src stride w b (x + (N * r + c))) := by
  have hrR : N * r + N ≤ N * R := by
    have := Nat.mul_le_mul_left N (show r + 1 ≤ R from hr)
    rw [Nat.mul_add] at this; omega
  have hrow : ∀ k, k < b.size → ∃ s, slice? src (stride * (b.start + k) + x) (stride * (b.start + k) + x + N * R) = some s ∧
      loadGroup o.conv N s (N * r) = some ((List.range N).map fun c =>
        o.conv (src.getD ((b.start + k) * stride + (x + (N * r + c))) d0)) := by
    intro k hk
    have h := hsrc k hk
    obtain ⟨s, hs⟩ : ∃ s, slice? src (stride * (b.start + k) + x) (stride * (b.start + k) + x + N * R) = some s :=
      ⟨_, slice?_eq_some (by omega) (by omega)⟩
    have hl := slice?_length hs
    refine ⟨s, hs, ?_⟩
    rw [loadGroup_eq hN d0 (by omega)]
    congr 1
    apply List.map_congr_left
    intro c hc
    have hc : c < N := by simpa using hc
    rw [slice_getD hs _ _ (by omega)]
    congr 2
    ring
  have hws : ∀ m, b.size = m → ∃ ws, slice? w 0 m = some ws ∧ ∀ k, k < m → ws[k]? = some (w.getD k 0) := by
    intro m hm
    subst hm
    obtain ⟨ws, hws⟩ : ∃ ws, slice? w 0 b.size = some ws := ⟨_, slice?_eq_some (by omega) (by omega)⟩
    refine ⟨ws, hws, ?_⟩
    intro k hk
    rw [slice?_get hws k (by omega), Nat.zero_add]
    exact getElem?_eq_some_getD 0 (by omega)
  unfold columnSumsF
  dsimp only
  split_ifs with h2 h3 h4 h6
  · obtain ⟨ws, e3, e4⟩ := hws 2 h2
    obtain ⟨s0, a0, l0⟩ := hrow 0 (by omega)
    obtain ⟨s1, a1, l1⟩ := hrow 1 (by omega)
    simp only [e3, e4 0 (by omega), e4 1 (by omega), a0, a1, l0, l1, Option.bind_eq_bind, Option.bind_some, gMul_map, gMla_map]
    simp [vSumF, floatVal, h2, leftSum, chain]
  · obtain ⟨ws, e3, e4⟩ := hws 3 h3
    obtain ⟨s0, a0, l0⟩ := hrow 0 (by omega)
    obtain ⟨s1, a1, l1⟩ := hrow 1 (by omega)
    obtain ⟨s2, a2, l2⟩ := hrow 2 (by omega)
    simp only [e3, e4 0 (by omega), e4 1 (by omega), e4 2 (by omega), a0, a1, a2, l0, l1, l2, Option.bind_eq_bind,
      Option.bind_some, gMul_map, gMla_map]
    simp [vSumF, floatVal, h3, leftSum, chain]
  · obtain ⟨ws, e3, e4⟩ := hws 4 h4
    obtain ⟨s0, a0, l0⟩ := hrow 0 (by omega)
    obtain ⟨s1, a1, l1⟩ := hrow 1 (by omega)
    obtain ⟨s2, a2, l2⟩ := hrow 2 (by omega)
    obtain ⟨s3, a3, l3⟩ := hrow 3 (by omega)
    simp only [e3, e4 0 (by omega), e4 1 (by omega), e4 2 (by omega), e4 3 (by omega), a0, a1, a2, a3, l0, l1, l2, l3,
      Option.bind_eq_bind, Option.bind_some, gMul_map, gMla_map]
    simp [vSumF, floatVal, h4, leftSum, chain]
  · obtain ⟨ws, e3, e4⟩ := hws 6 h6
    obtain ⟨s0, a0, l0⟩ := hrow 0 (by omega)
    obtain ⟨s1, a1, l1⟩ := hrow 1 (by omega)
    obtain ⟨s2, a2, l2⟩ := hrow 2 (by omega)
    obtain ⟨s3, a3, l3⟩ := hrow 3 (by omega)
    obtain ⟨s4, a4, l4⟩ := hrow 4 (by omega)
    obtain ⟨s5, a5, l5⟩ := hrow 5 (by omega)
    simp only [e3, e4 0 (by omega), e4 1 (by omega), e4 2 (by omega), e4 3 (by omega), e4 4 (by omega), e4 5 (by omega),
      a0, a1, a2, a3, a4, a5, l0, l1, l2, l3, l4, l5, Option.bind_eq_bind, Option.bind_some, gMul_map, gMla_map]
    simp [vSumF, floatVal, h6, leftSum, chain]
  · let F : ℕ → List A := fun n => (List.range N).map fun c => chain o.mla o.zero
      (fun k => o.conv (src.getD ((b.start + k) * stride + (x + (N * r + c))) d0)) (fun k => o.weight (w.getD k 0)) n
    have hlen : ((w.take b.size).zipIdx).length = b.size := by
      simp only [List.length_zipIdx, List.length_take]
      omega
    have h0 : List.replicate N o.zero = F 0 := by simp [F, chain, List.map_const']
    rw [h0]
    have := foldlM_take (fun (acc : List A) (wj : ℚ × ℕ) => do
        let s ← slice? src (stride * (b.start + wj.2) + x) (stride * (b.start + wj.2) + x + N * R)
        let p ← loadGroup o.conv N s (N * r)
        some (o.gMla acc p wj.1)) ((w.take b.size).zipIdx) (fun i => (w.getD i 0, i)) F b.size
      (by
        intro i hi
        rw [List.getElem?_zipIdx, List.getElem?_take, if_pos hi, getElem?_eq_some_getD 0 (by omega)]
        simp)
      (by
        intro i hi
        obtain ⟨s, a, l⟩ := hrow i hi
        simp only [a, l, Option.bind_eq_bind, Option.bind_some, F, gMla_map, chain])
    rw [List.take_of_length_le (by omega)] at this
    rw [this]
    have hne : ¬ (b.size = 2 ∨ b.size = 3 ∨ b.size = 4 ∨ b.size = 6) := by omega
    simp only [F, vSumF, floatVal, if_neg hne]

theorem columnBlockF_ok (o : FloatOps S A) (d0 : S) {N R total : ℕ} (hN : 1 ≤ N ∧ N ≤ 4) {src : List S}
    {stride : ℕ} {w : List ℚ} {b : Bounds} (hw : b.size ≤ w.length)
    (hsrc : (b.start + b.size - 1) * stride + total ≤ src.length) :
    BlockOK total (N * R) (columnBlockF o N R src stride w b)
      (fun p => o.fin (vSumF o d0 src stride w b p)) := by
  intro x dst hl hx
  have hrow : ∀ k, k < b.size → stride * (b.start + k) + x + N * R ≤ src.length := by
    intro k hk
    have : stride * (b.start + k) ≤ (b.start + b.size - 1) * stride := by
      rw [Nat.mul_comm]; exact Nat.mul_le_mul_right _ (by omega)
    omega
  have hm : (List.range R).mapM (columnSumsF o N R src stride w b x) =
      some ((List.range R).map fun r => (List.range N).map fun c => vSumF o d0 src stride w b (x + (N * r + c))) := by
    have := mapM_map_some (List.range R) (columnSumsF o N R src stride w b x) id
      (fun r => (List.range N).map fun c => vSumF o d0 src stride w b (x + (N * r + c)))
      (fun r hr => columnSumsF_eq o d0 hN (by simpa using hr) hrow hw)
    simpa using this
  obtain ⟨r, e1, e2, e3, e4⟩ := columnStores_write (R := R) (B := N) (x := x) o.fin
    (f := fun j => vSumF o d0 src stride w b (x + j)) dst (by omega)
  refine ⟨r, ?_, by omega, ?_, e4⟩
  · unfold columnBlockF
    simp only [hm, Option.bind_eq_bind, Option.bind_some, e1]
  · intro p hp1 hp2
    have := e3 (p - x) (by omega)
    rw [show x + (p - x) = p by omega] at this
    exact this

theorem columnFloat_spec (o : FloatOps S A) (d0 : S) {src dst : List S} {stride : ℕ} {w : List ℚ} {b : Bounds}
    (hw : b.size ≤ w.length) (hsrc : (b.start + b.size - 1) * stride + dst.length ≤ src.length) :
    ∃ r, columnFloat o b src dst stride w = some r ∧ r.length = dst.length ∧
      ∀ p, p < dst.length → r[p]? = some (o.fin (vSumF o d0 src stride w b p)) := by
  obtain ⟨c1, r1, a1, a2, a3, a4, a5, a6⟩ := whileBlocks_spec (margin := 16) (step := 16) (by omega) (by omega)
    (columnBlockF_ok o d0 (N := 4) (R := 4) (by omega) hw hsrc) dst.length 0 dst rfl (by omega) (by omega) (by simp)
  obtain ⟨c2, r2, b1, b2, b3, b4, b5, b6⟩ := whileBlocks_spec (margin := 4) (step := 4) (by omega) (by omega)
    (columnBlockF_ok o d0 (N := 4) (R := 1) (by omega) hw hsrc) dst.length c1 r1 a2 a4 (by omega) a6
  obtain ⟨c3, r3, f1, f2, f3, f4, f5, f6⟩ := whileBlocks_spec (margin := 0) (step := 1) (by omega) (by omega)
    (columnBlockF_ok o d0 (N := 1) (R := 1) (by omega) hw hsrc) dst.length c2 r2 b2 b4 (by omega) b6
  refine ⟨r3, ?_, f2, fun p hp => f6 p (by omega)⟩
  unfold columnFloat
  simp only [Option.bind_eq_bind, a1, b1, f1, Option.bind_some]

theorem pxD_getD (d0 : S) (buf : List S) (stride N y x c : ℕ) :
    (buf.getD (y * stride + x * N + c) d0) = (sample buf stride N y x c).getD d0 := by
  simp [sample, List.getD_eq_getElem?_getD]

theorem horizontalFloat_raw (o : FloatOps S A) (d0 : S) {N : ℕ} {src dst : Image S} {fw : FilterWeights ℚ}
    (hN : 1 ≤ N ∧ N ≤ 4) (hs : src.validate N = .ok ()) (hd : dst.validate N = .ok ())
    (hh : src.height = dst.height) (hsw : 0 < src.width) (hdw : 0 < dst.width)
    (hT : ValidTable fw src.width dst.width) :
    ∃ r, horizontalFloat o N src dst fw = some { dst with buffer := r } ∧
      r.length = dst.buffer.length ∧
      (∀ y x c, y < dst.height → x < dst.width → c < N → r[y * dst.strideOf N + x * N + c]? =
        some (o.fin (floatVal o (fw.bound x).size
          (fun k => o.conv ((sample src.buffer (src.strideOf N) N y ((fw.bound x).start + k) c).getD d0))
          (fun k => o.weight (fw.weight x k))))) ∧
      (∀ y p, y < dst.height → dst.width * N ≤ p → p < dst.strideOf N →
        r[y * dst.strideOf N + p]? = dst.buffer[y * dst.strideOf N + p]?) := by
  obtain ⟨s1, s2, _⟩ := validate_ok hs
  obtain ⟨d1, d2, _⟩ := validate_ok hd
  rw [hh] at s1
  have hkl : ∀ x, x < dst.width → (fw.bound x).size ≤ (fw.kernel x).length := fun x hx => by
    rw [hT.shape.kernel_length hx]; exact hT.size_le x hx
  have hin : ∀ x, x < dst.width → ((fw.bound x).start + (fw.bound x).size) * N ≤ src.strideOf N :=
    fun x hx => le_trans (Nat.mul_le_mul_right _ (hT.inside x hx)) s2
  let val : (ℕ → S) → ℕ → ℕ → S := fun f x c => o.fin (floatVal o (fw.bound x).size
      (fun k => o.conv (f (((fw.bound x).start + k) * N + c))) (fun k => o.weight ((fw.kernel x).getD k 0)))
  have hpos : 0 < src.strideOf N := lt_of_lt_of_le (Nat.mul_pos hsw hN.1) s2
  have hdp : 0 < dst.strideOf N := lt_of_lt_of_le (Nat.mul_pos hdw hN.1) d2
  have loc : ∀ (f g : ℕ → S) x c, x < dst.width → c < N → (∀ i, i < src.strideOf N → f i = g i) →
      val f x c = val g x c := by
    intro f g x c hx hc h
    simp only [val]
    congr 1
    apply floatVal_congr _ (fun _ _ => rfl)
    intro k hk
    rw [h]
    have := hin x hx
    have h2 : ((fw.bound x).start + k + 1) * N ≤ ((fw.bound x).start + (fw.bound x).size) * N :=
      Nat.mul_le_mul_right _ (by omega)
    rw [Nat.add_mul _ 1] at h2
    omega
  have ok : HOK N (src.strideOf N) (dst.strideOf N) dst.width d0 val
      (fun s d => rowFloat o N s d fw) := by
    refine ⟨loc, ?_⟩
    intro s d hsl hdl
    obtain ⟨r, h1, h2, h3, h4⟩ := rowPass_spec (N := N) (pix := rowPixelSumsF o N s 0)
      (fin := o.fin) (dst := d) hT.shape (by omega)
      (val := fun x => hSumF o d0 N s 0 (fw.kernel x) (fw.bound x))
      (fun x hx => rowPixelSumsF_eq o d0 hN (by have := hin x hx; omega) (hkl x hx))
    refine ⟨r, h1, by omega, ?_, h4⟩
    intro x c hx hc
    rw [h3 x c hx hc]
    simp only [val, hSumF, Nat.zero_add]
  have ok4 : H4OK N (src.strideOf N) (dst.strideOf N) dst.width d0 val
      (fun s ss d ds => rows4Float o N s ss d ds fw) := by
    intro s d hsl hdl
    obtain ⟨r, h1, h2, h3, h4⟩ := rows4Pass_spec (N := N) (pix4 := rows4PixelSumsF o N s (src.strideOf N))
      (fin := o.fin) (dst := d) (stride := dst.strideOf N) hT.shape hdl d2
      (val := fun x q => hSumF o d0 N s (src.strideOf N * q) (fw.kernel x) (fw.bound x))
      (fun x hx => rows4PixelSumsF_eq o d0 hN (by have := hin x hx; omega) (hkl x hx))
    refine ⟨r, h1, by omega, ?_, h4⟩
    intro q x c hq hx hc
    rw [h3 q x c hq hx hc]
    simp only [val, hSumF, Nat.add_assoc]
  obtain ⟨r, e1, e2, e3, e4⟩ := horizontalDispatch_spec ok ok4 rfl rfl hpos hdp d2 s1 d1
  refine ⟨r, e1, e2, ?_, e4⟩
  intro y x c hy hx hc
  rw [e3 y x c hy hx hc]
  simp only [val]
  congr 2
  apply floatVal_congr
  · intro k hk
    rw [← pxD_getD, Nat.add_assoc]
  · intro k hk
    rw [FilterWeights.kernel_getD fw x k 0 (by have := hT.size_le x hx; omega)]
    rfl

theorem verticalFloat_raw (o : FloatOps S A) (d0 : S) {N : ℕ} {src dst : Image S} {fw : FilterWeights ℚ}
    (hN : 1 ≤ N) (hs : src.validate N = .ok ()) (hd : dst.validate N = .ok ())
    (hw : src.width = dst.width) (hdw : 0 < dst.width)
    (hT : ValidTable fw src.height dst.height) :
    ∃ r, verticalFloat o N src dst fw = some { dst with buffer := r } ∧
      r.length = dst.buffer.length ∧
      (∀ y x c, y < dst.height → x < dst.width → c < N → r[y * dst.strideOf N + x * N + c]? =
        some (o.fin (floatVal o (fw.bound y).size
          (fun k => o.conv ((sample src.buffer (src.strideOf N) N ((fw.bound y).start + k) x c).getD d0))
          (fun k => o.weight (fw.weight y k))))) ∧
      (∀ y p, y < dst.height → dst.width * N ≤ p → p < dst.strideOf N →
        r[y * dst.strideOf N + p]? = dst.buffer[y * dst.strideOf N + p]?) := by
  obtain ⟨s1, s2, _⟩ := validate_ok hs
  obtain ⟨d1, d2, _⟩ := validate_ok hd
  have hdp : 0 < dst.strideOf N := lt_of_lt_of_le (Nat.mul_pos hdw hN) d2
  let val : ℕ → ℕ → S := fun y p => o.fin (vSumF o d0 src.buffer (src.strideOf N)
    (fw.weights.drop (y * fw.alignedSize)) (fw.bound y) p)
  have ok : VOK (src.strideOf N) (dst.width * N) src.buffer fw.bounds fw.alignedSize fw.weights
      (fun b s d ss w => columnFloat o b s d ss w) dst.height val := by
    intro y b hy hb d hdl
    have hbe : b = fw.bound y := (getD_eq_of_getElem? hb).symm
    subst hbe
    have hsz := hT.size_pos y hy
    have hal : (y + 1) * fw.alignedSize ≤ dst.height * fw.alignedSize :=
      Nat.mul_le_mul_right _ hy
    rw [Nat.add_mul] at hal
    have hlen := hT.weights_len
    have hle := hT.size_le y hy
    have hrow : ((fw.bound y).start + (fw.bound y).size - 1) * src.strideOf N + dst.width * N ≤
        src.buffer.length := by
      have h1 := hT.inside y hy
      have h2 : ((fw.bound y).start + (fw.bound y).size - 1 + 1) * src.strideOf N ≤
          src.height * src.strideOf N := Nat.mul_le_mul_right _ (by omega)
      rw [Nat.add_mul] at h2
      rw [hw] at s2
      omega
    obtain ⟨r, h1, h2, h3⟩ := columnFloat_spec o d0 (src := src.buffer) (dst := d)
      (stride := src.strideOf N) (w := fw.weights.drop (y * fw.alignedSize)) (b := fw.bound y)
      (by rw [List.length_drop]; omega) (by rw [hdl]; exact hrow)
    exact ⟨r, h1, by omega, fun p hp => h3 p (by omega)⟩
  obtain ⟨r, e1, e2, e3, e4⟩ := verticalDispatch_spec (W := ℚ) (aligned := fw.alignedSize)
    (weights := fw.weights) (src := src) (dst := dst) (N := N) rfl rfl hdp d2 d1 hT.bounds_len
    (le_of_eq hT.weights_len.symm) ok
  refine ⟨r, e1, e2, ?_, e4⟩
  intro y x c hy hx hc
  have hlt : x * N + c < dst.width * N := by
    have := Nat.mul_le_mul_right N (show x + 1 ≤ dst.width from hx)
    rw [Nat.add_mul] at this; omega
  rw [Nat.add_assoc, e3 y _ hy hlt]
  simp only [val, vSumF]
  congr 2
  apply floatVal_congr
  · intro k hk
    rw [← pxD_getD, Nat.add_assoc]
  · intro k hk
    simp [FilterWeights.weight, List.getD_eq_getElem?_getD, List.getElem?_drop]

end PicScale
