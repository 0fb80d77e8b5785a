import Verif.Lemmas.X86Ar30V
import Verif.Lemmas.Ar30Dispatch
import Verif.Lemmas.SimdPassG

/-! The two SSE4.1 passes over packed 10-bit images: bytes, then components. -/

namespace PicScale

open Finset Spec

/-! ### lanes -/

theorem lane30_fifteen {v : ℤ} (h1 : -2 ^ 31 ≤ v) (h2 : v < 2 ^ 30) : lane30 15 1023 v = clamp 1023 (v / 2 ^ 15) := by
  unfold lane30
  rw [i32_eq_self (v := v) (by omega) (by omega), Int.shiftRight_eq_div_pow]
  have e : ((2 ^ 15 : ℕ) : ℤ) = 32768 := by norm_num
  rw [e, show (2 ^ 15 : ℤ) = 32768 by norm_num, i32_eq_self (by omega) (by omega), i16_eq_self (v := 1023) (by omega) (by omega),
    i16_eq_self (by omega) (by omega)]
  unfold u16 clamp
  omega

theorem lane30_sixteen {v : ℤ} (h1 : -2 ^ 31 ≤ v) (h2 : v < 2 ^ 31) : lane30 16 1023 v = clamp 1023 (v / 2 ^ 16) := by
  unfold lane30
  rw [i32_eq_self (v := v) (by omega) (by omega), Int.shiftRight_eq_div_pow]
  have e : ((2 ^ 16 : ℕ) : ℤ) = 65536 := by norm_num
  rw [e, show (2 ^ 16 : ℤ) = 65536 by norm_num, i32_eq_self (by omega) (by omega), i16_eq_self (v := 1023) (by omega) (by omega),
    i16_eq_self (by omega) (by omega)]
  unfold u16 clamp
  omega

/-- The lanes of `_mm_set1_epi32(1023)` that are zero: nothing passes the `min`. -/
theorem lane30_zero (v : ℤ) : lane30 16 0 v = 0 := by
  unfold lane30
  rw [Int.shiftRight_eq_div_pow]
  have e : ((2 ^ 16 : ℕ) : ℤ) = 65536 := by norm_num
  have h1 : -2147483648 ≤ i32 v := by
    have := Int.le_bmod (x := v) (m := 2 ^ 32) (by norm_num); unfold i32; norm_num at this ⊢; omega
  have h2 : i32 v < 2147483648 := by
    have := Int.bmod_lt (x := v) (m := 2 ^ 32) (by norm_num); unfold i32; norm_num at this ⊢; omega
  rw [e, i32_eq_self (v := i32 v / 65536) (by omega) (by omega), i16_eq_self (v := 0) (by omega) (by omega),
    i16_eq_self (by omega) (by omega)]
  unfold u16
  omega

theorem cut16 : (set1epi16 1023 : Reg) = lanes8 fun _ => 1023 := set1epi16_of 1023

theorem cut32 : (set1epi32 1023 : Reg) = lanes8 fun i => if i % 2 = 0 then 1023 else 0 := by decide +kernel

/-! ### pixels -/

/-- Components of a pixel whose four bytes are known. -/
theorem pix30_of_px {t : Rgb30} {o : Ar30Order} {r : List ℕ} {stride y x : ℕ} {q : ℕ → ℕ}
    (hq : ∀ c, c < 3 → q c < 1024)
    (h : ∀ i, i < 4 → r[y * stride + x * 4 + i]? = some (pxByte t o q i)) :
    (∀ c, c < 3 → pix30 (fmtLE t o) r stride y x c = q c) ∧ pix30 (fmtLE t o) r stride y x 3 = 3 := by
  have e : word30 (fmtLE t o).bigFirst (fun i => r.getD (y * stride + x * 4 + i) 0) =
      word30 (fmtLE t o).bigFirst (pxByte t o q) := by
    have hi : ∀ i, i < 4 → r.getD (y * stride + x * 4 + i) 0 = pxByte t o q i := fun i hi => by
      rw [List.getD_eq_getElem?_getD, h i hi]; rfl
    unfold word30
    simp only [hi 0 (by omega), hi 1 (by omega), hi 2 (by omega), hi 3 (by omega)]
  have hs := stored_word (fmtLE t o) (hq 0 (by omega)) (hq 1 (by omega)) (hq 2 (by omega))
  have hc := comp30_packed t (hq 0 (by omega)) (hq 1 (by omega)) (hq 2 (by omega))
  unfold pix30
  rw [e]
  have e2 : word30 (fmtLE t o).bigFirst (pxByte t o q) = packed30 t (q 0) (q 1) (q 2) := hs
  rw [e2]
  refine ⟨fun c hc3 => ?_, hc.2.2.2⟩
  have h3 : c = 0 ∨ c = 1 ∨ c = 2 := by omega
  rcases h3 with rfl | rfl | rfl
  · exact hc.1
  · exact hc.2.1
  · exact hc.2.2.1

theorem tapPixel_lt {n k : ℕ} (hk : k < n) : tapPixel n k < n := by
  unfold tapPixel
  split_ifs <;> omega

/-! ### the horizontal pass -/

/-- Byte `i` of pixel `x` written by the horizontal pass in row `y` of `H`, from the samples `f` of the row. -/
def hByte30 (t : Rgb30) (o : Ar30Order) (q : FilterWeights ℤ) (H y : ℕ) (f : ℕ → ℕ) (x i : ℕ) : ℕ :=
  if y < 4 * (H / 4) then hVal30 15 (fun _ => 1023) t o (q.kernel x) (q.bound x) f i
  else hVal30 16 (fun i => if i % 2 = 0 then 1023 else 0) t o (q.kernel x) (q.bound x) f i

theorem hVal30_loc {P : ℕ} {cut : ℕ → ℤ} {t : Rgb30} {o : Ar30Order} {w : List ℤ} {b : Bounds} {f g : ℕ → ℕ}
    (h : ∀ i, i < (b.start + b.size) * 4 → f i = g i) (k : ℕ) :
    hVal30 P cut t o w b f k = hVal30 P cut t o w b g k := by
  unfold hVal30
  refine pxByte_congr (fun c _ => ?_) k
  refine congrArg (fun v => lane30 P (cut c) v % 1024) ?_
  unfold hAcc30
  refine congrArg (fun v => i32 ((2 ^ (P - 1) - 1) + v)) ?_
  apply wsum_congr (fun _ _ => rfl)
  intro j hj
  refine congrArg (fun v : ℕ => (v : ℤ)) ?_
  unfold tapRaw
  have := tapPixel_lt hj
  exact raw30_congr _ (fun i hi => by rw [h _ (by omega)]) c

theorem horizontal30Sse_raw (t : Rgb30) (o : Ar30Order) {cpu : Cpu} (hcpu : cpu.sse41 = true) {src dst : List ℕ}
    {ss ds H inn out : ℕ} {fw : FilterWeights ℚ}
    (hin : 0 < inn) (hout : 0 < out) (hs : src.length = H * ss) (hd : dst.length = H * ds)
    (hss : inn * 4 ≤ ss) (hds : out * 4 ≤ ds) (hT : ValidTable fw inn out) (hP : PlainShape fw out) :
    ∃ r, horizontal30X86 cpu t o src ss fw dst ds = some r ∧ r.length = dst.length ∧
      (∀ y x i, y < H → x < out → i < 4 → r[y * ds + x * 4 + i]? =
        some (hByte30 t o (numericalApproximation F32.rnd fw) H y (fun i => src.getD (y * ss + i) 0) x i)) ∧
      (∀ y p, y < H → out * 4 ≤ p → p < ds → r[y * ds + p]? = dst[y * ds + p]?) := by
  have hQ : ValidTable (numericalApproximation F32.rnd fw) inn out := hP.q_valid hT
  unfold horizontal30X86
  rw [if_pos hcpu]
  generalize hq : numericalApproximation F32.rnd fw = q at *
  have hkl : ∀ x, x < out → (q.bound x).size ≤ (q.kernel x).length := fun x hx => by
    rw [hQ.shape.kernel_length hx]; exact hQ.size_le x hx
  have hins : ∀ x, x < out → ((q.bound x).start + (q.bound x).size) * 4 ≤ ss :=
    fun x hx => le_trans (Nat.mul_le_mul_right _ (hQ.inside x hx)) hss
  let val4 : (ℕ → ℕ) → ℕ → ℕ → ℕ := fun f x c => hVal30 15 (fun _ => 1023) t o (q.kernel x) (q.bound x) f c
  let val1 : (ℕ → ℕ) → ℕ → ℕ → ℕ := fun f x c =>
    hVal30 16 (fun i => if i % 2 = 0 then 1023 else 0) t o (q.kernel x) (q.bound x) f c
  have ok : HOK 4 ss ds out 0 val1 (fun s d => simdRow 4 (ar30Row t o s) d q) := by
    refine ⟨fun f g x c hx _ h => hVal30_loc (fun i hi => h i (lt_of_lt_of_le hi (hins x hx))) c, ?_⟩
    intro s d hsl hdl
    obtain ⟨r, h1, h2, h3, h4⟩ := rowPass_spec (N := 4) (pix := fun w b => do
        let l ← ar30Row t o s [0] w b
        l[0]?)
      (fin := fun v : ℕ => v) (dst := d) hQ.shape (by omega)
      (val := fun x c => val1 (fun i => s.getD i 0) x c)
      (fun x hx => by
        have := hins x hx
        have e := ar30Sse_ok (P := 16) (t := t) (o := o) (src := s) (offs := [0]) (w := q.kernel x) (b := q.bound x)
          (fun i => if i % 2 = 0 then 1023 else 0)
          ⟨hQ.size_pos x hx, hkl x hx, fun o ho => by rw [List.mem_singleton] at ho; omega⟩
        rw [← cut32] at e
        unfold ar30Row
        rw [e]
        simp only [Option.bind_eq_bind, Option.bind_some, List.map_cons, List.map_nil, List.getElem?_cons_zero, Nat.zero_add]
        rfl)
    exact ⟨r, h1, by omega, h3, h4⟩
  have ok4 : H4OK 4 ss ds out 0 val4 (fun s ss d ds => simdRows4 4 (ar30Rows4 t o s) ss d ds q) := by
    intro s d hsl hdl
    obtain ⟨r, h1, h2, h3, h4⟩ := rows4Pass_spec (N := 4) (pix4 := fun w b => do
        let l ← ar30Rows4 t o s [0, ss, ss * 2, ss * 3] w b
        let r0 ← l[0]?
        let r1 ← l[1]?
        let r2 ← l[2]?
        let r3 ← l[3]?
        some (r0, r1, r2, r3))
      (fin := fun v : ℕ => v) (dst := d) (stride := ds) hQ.shape hdl hds
      (val := fun x qq c => val4 (fun i => s.getD (ss * qq + i) 0) x c)
      (fun x hx => by
        have := hins x hx
        have e := ar30Sse_ok (P := 15) (t := t) (o := o) (src := s) (offs := [0, ss, ss * 2, ss * 3])
          (w := q.kernel x) (b := q.bound x) (fun _ => 1023)
          ⟨hQ.size_pos x hx, hkl x hx, fun o ho => by
            simp only [List.mem_cons, List.not_mem_nil, or_false] at ho; omega⟩
        rw [← cut16] at e
        unfold ar30Rows4
        rw [e]
        simp only [Option.bind_eq_bind, Option.bind_some, List.map_cons, List.map_nil, List.getElem?_cons_zero,
          List.getElem?_cons_succ, Nat.zero_add, val4, Nat.mul_zero, Nat.mul_one])
    exact ⟨r, h1, by omega, h3, h4⟩
  have hss0 : 0 < ss := by omega
  have hds0 : 0 < ds := by omega
  obtain ⟨r, e1, e2, e3, e4⟩ := horizontalDispatch_spec2 (H := H) ok ok4
    (fun f g x c hx _ h => hVal30_loc (fun i hi => h i (lt_of_lt_of_le hi (hins x hx))) c)
    (src := image30 src 0 0 ss) (dst := image30 dst 0 0 ds) (image30_stride hss0) (image30_stride hds0) hss0 hds0 hds hs hd
  refine ⟨r, by dsimp only; rw [e1]; rfl, e2, fun y x i hy hx hi => ?_, e4⟩
  rw [e3 y x i hy hx hi]
  unfold hByte30
  split_ifs <;> rfl

/-! ### the vertical pass -/

theorem vertical30Sse_raw (t : Rgb30) (o : Ar30Order) {cpu : Cpu} (hcpu : cpu.sse41 = true) {src dst : List ℕ}
    {ss ds width inn out : ℕ} {fw : FilterWeights ℚ}
    (hw0 : 0 < width) (hs : src.length = inn * ss) (hd : dst.length = out * ds)
    (hss : width * 4 ≤ ss) (hds : width * 4 ≤ ds) (hT : ValidTable fw inn out) (hP : PlainShape fw out) :
    ∃ r, vertical30X86 cpu t o src ss fw dst ds width = some r ∧ r.length = dst.length ∧
      (∀ y p, y < out → p < width * 4 → r[y * ds + p]? =
        some (vVal30 t o src ss ((numericalApproximation F32.rnd fw).weights.drop
          (y * (numericalApproximation F32.rnd fw).alignedSize)) (fw.bound y) p)) ∧
      (∀ y p, y < out → width * 4 ≤ p → p < ds → r[y * ds + p]? = dst[y * ds + p]?) := by
  have hQ : ValidTable (numericalApproximation F32.rnd fw) inn out := hP.q_valid hT
  have hbd : ∀ i, (numericalApproximation F32.rnd fw).bound i = fw.bound i := fun _ => rfl
  unfold vertical30X86
  rw [if_pos hcpu]
  generalize hq : numericalApproximation F32.rnd fw = q at *
  have ok : VOK ss (width * 4) src q.bounds q.alignedSize q.weights (fun b s d ss w => sseColumn30 t o b s d ss w) out
      (fun y p => vVal30 t o src ss (q.weights.drop (y * q.alignedSize)) (q.bound y) p) := by
    intro y b hy hbb d hdl
    have hbe : b = q.bound y := (getD_eq_of_getElem? hbb).symm
    subst hbe
    have hsz := hQ.size_pos y hy
    have hal : (y + 1) * q.alignedSize ≤ out * q.alignedSize := Nat.mul_le_mul_right _ hy
    rw [Nat.add_mul] at hal
    have hlen := hQ.weights_len
    have hle := hQ.size_le y hy
    have hrow : ((q.bound y).start + (q.bound y).size - 1) * ss + width * 4 ≤ src.length := by
      have h1 := hQ.inside y hy
      have h2 : ((q.bound y).start + (q.bound y).size - 1 + 1) * ss ≤ inn * ss := Nat.mul_le_mul_right _ (by omega)
      rw [Nat.add_mul] at h2
      omega
    obtain ⟨r, h1, h2, h3⟩ := sseColumn30_spec (t := t) (o := o) (src := src) (dst := d) (stride := ss) (width := width)
      (w := q.weights.drop (y * q.alignedSize)) (b := q.bound y)
      (by rw [List.length_drop]; omega) hdl hrow
    exact ⟨r, h1, by omega, fun p hp => h3 p (by omega)⟩
  have hss0 : 0 < ss := by omega
  have hds0 : 0 < ds := by omega
  obtain ⟨r, e1, e2, e3, e4⟩ := verticalDispatch_spec (W := ℤ) (aligned := q.alignedSize)
    (weights := q.weights) (src := image30 src 0 0 ss) (dst := image30 dst width 0 ds) (N := 4)
    (image30_stride hss0) (image30_stride hds0) hds0 hds hd hQ.bounds_len (le_of_eq hQ.weights_len.symm) ok
  simp only [image30] at e3 e4
  refine ⟨r, ?_, e2, fun y p hy hp => by rw [e3 y p hy hp, ← hbd y], e4⟩
  show ((verticalDispatch 4 (image30 src 0 0 ss) (image30 dst width 0 ds) q.bounds q.alignedSize q.weights
      (fun b s d ss w => sseColumn30 t o b s d ss w)).bind fun d => some d.buffer) = some r
  rw [e1]; rfl

/-! ### components -/

/-- Every weight is an `i16`. -/
def WeightsI16 (q : FilterWeights ℤ) : Prop := ∀ i k, -32768 ≤ q.weight i k ∧ q.weight i k ≤ 32767

theorem wsum30At {n : ℕ} {w p : ℕ → ℤ} (hp : ∀ k, 0 ≤ p k ∧ p k ≤ 1023)
    (hO : (∑ k ∈ range n, |w k|) * ((1023 : ℕ) : ℤ) + 2 ^ 14 < 2 ^ 30) :
    -2 ^ 30 + 2 ^ 14 < wsum n w p ∧ wsum n w p + 2 ^ 14 < 2 ^ 30 := by
  have h := wsum_abs_le (n := n) (w := w) (p := p) (M := 1023) (fun k _ => by simpa using hp k)
  push_cast at h hO
  have h2 := abs_le.1 h
  omega

theorem horizontal30Sse_spec (t : Rgb30) (o : Ar30Order) {cpu : Cpu} (hcpu : cpu.sse41 = true) {src dst : List ℕ}
    {ss ds H inn out : ℕ} {fw : FilterWeights ℚ}
    (hin : 0 < inn) (hout : 0 < out) (hs : src.length = H * ss) (hd : dst.length = H * ds)
    (hss : inn * 4 ≤ ss) (hds : out * 4 ≤ ds) (hT : ValidTable fw inn out) (hP : PlainShape fw out)
    (hO : NoOverflow30At (numericalApproximation F32.rnd fw) out 1023)
    (hW : WeightsI16 (numericalApproximation F32.rnd fw)) (hb : ∀ v ∈ src, v < 256) :
    ∃ r, horizontal30X86 cpu t o src ss fw dst ds = some r ∧ r.length = dst.length ∧
      (∀ y x c, y < H → x < out → c < 3 → pix30 (fmtLE t o) r ds y x c =
        rowSse30 (decide (y < 4 * (H / 4))) c (fw.bound x).size (fun k => (numericalApproximation F32.rnd fw).weight x k)
          (fun k => pix30 (fmtLE t o) src ss y ((fw.bound x).start + k) c)) ∧
      (∀ y x, y < H → x < out → pix30 (fmtLE t o) r ds y x 3 = 3) ∧
      (∀ y p, y < H → out * 4 ≤ p → p < ds → r[y * ds + p]? = dst[y * ds + p]?) := by
  have hQ : ValidTable (numericalApproximation F32.rnd fw) inn out := hP.q_valid hT
  obtain ⟨r, e1, e2, e3, e4⟩ := horizontal30Sse_raw t o hcpu hin hout hs hd hss hds hT hP
  have hbd : ∀ i, (numericalApproximation F32.rnd fw).bound i = fw.bound i := fun _ => rfl
  generalize hq : numericalApproximation F32.rnd fw = q at *
  have hlt : ∀ i, src.getD i 0 < 256 := fun i =>
    lt_of_le_of_lt (getD_le_of_forall (M := 255) (fun v hv => by have := hb v hv; omega) i) (by norm_num)
  -- the accumulators
  have acc : ∀ P y x c, x < out → c < 3 → 15 ≤ P → P ≤ 16 →
      hAcc30 P t o (q.kernel x) (q.bound x) (fun i => src.getD (y * ss + i) 0) (q.bound x).size c =
        (2 ^ (P - 1) - 1) + wsum (fw.bound x).size (fun k => q.weight x k)
          (fun k => ((pix30 (fmtLE t o) src ss y ((fw.bound x).start + tapPixel (fw.bound x).size k) c : ℕ) : ℤ)) := by
    intro P y x c hx hc hP1 hP2
    unfold hAcc30
    rw [hbd]
    have e : wsum (fw.bound x).size (fun k => i16 ((q.kernel x).getD k 0))
        (fun k => ((tapRaw t o (fw.bound x) (fun i => src.getD (y * ss + i) 0) c (tapPixel (fw.bound x).size k) : ℕ) : ℤ)) =
        wsum (fw.bound x).size (fun k => q.weight x k)
          (fun k => ((pix30 (fmtLE t o) src ss y ((fw.bound x).start + tapPixel (fw.bound x).size k) c : ℕ) : ℤ)) := by
      apply wsum_congr
      · intro k hk
        have hsz := hQ.size_le x hx
        rw [hbd] at hsz
        rw [FilterWeights.kernel_getD q x k 0 (by omega)]
        exact i16_eq_self (v := q.weight x k) (hW x k).1 (by have := (hW x k).2; omega)
      · intro k hk
        refine congrArg (fun v : ℕ => (v : ℤ)) ?_
        unfold tapRaw
        rw [raw30_eq (fmtLE t o) (fun i => Nat.mod_lt _ (by norm_num)) hc]
        unfold pix30
        simp only [Nat.mod_eq_of_lt (hlt _), Nat.add_assoc]
    rw [e]
    have hsum := wsum30At (n := (fw.bound x).size) (w := fun k => q.weight x k)
      (p := fun k => ((pix30 (fmtLE t o) src ss y ((fw.bound x).start + tapPixel (fw.bound x).size k) c : ℕ) : ℤ))
      (fun k => ⟨Int.natCast_nonneg _, by
        have : pix30 (fmtLE t o) src ss y ((fw.bound x).start + tapPixel (fw.bound x).size k) c < 1024 := by
          unfold pix30 comp30
          rw [if_neg (by omega)]
          exact Nat.mod_lt _ (by norm_num)
        omega⟩) (by have := hO x hx; rwa [hbd] at this)
    have hPP : P = 15 ∨ P = 16 := by omega
    rcases hPP with rfl | rfl
    · exact i32_eq_self (by norm_num; omega) (by norm_num; omega)
    · exact i32_eq_self (by norm_num; omega) (by norm_num; omega)
  refine ⟨r, e1, e2, ?_⟩
  have hpix : ∀ y x, y < H → x < out →
      (∀ c, c < 3 → pix30 (fmtLE t o) r ds y x c =
        rowSse30 (decide (y < 4 * (H / 4))) c (fw.bound x).size (fun k => q.weight x k)
          (fun k => pix30 (fmtLE t o) src ss y ((fw.bound x).start + k) c)) ∧
      pix30 (fmtLE t o) r ds y x 3 = 3 := by
    intro y x hy hx
    have hv : ∀ c, c < 3 → rowSse30 (decide (y < 4 * (H / 4))) c (fw.bound x).size (fun k => q.weight x k)
          (fun k => pix30 (fmtLE t o) src ss y ((fw.bound x).start + k) c) < 1024 := by
      intro c _
      unfold rowSse30 fixedDown fixedHalf clamp
      split_ifs <;> omega
    apply pix30_of_px hv
    intro i hi
    rw [e3 y x i hy hx hi]
    refine congrArg some ?_
    unfold hByte30 hVal30
    have bnd := fun c (hc : c < 3) => wsum30At (n := (fw.bound x).size) (w := fun k => q.weight x k)
      (p := fun k => ((pix30 (fmtLE t o) src ss y ((fw.bound x).start + tapPixel (fw.bound x).size k) c : ℕ) : ℤ))
      (fun k => ⟨Int.natCast_nonneg _, by
        have : pix30 (fmtLE t o) src ss y ((fw.bound x).start + tapPixel (fw.bound x).size k) c < 1024 := by
          unfold pix30 comp30
          rw [if_neg (by omega)]
          exact Nat.mod_lt _ (by norm_num)
        omega⟩) (by have := hO x hx; rwa [hbd] at this)
    by_cases hg : y < 4 * (H / 4)
    · rw [if_pos hg]
      refine pxByte_congr (fun c hc => ?_) i
      rw [acc 15 y x c hx hc (by omega) (by omega)]
      have := bnd c hc
      rw [lane30_fifteen (by norm_num; omega) (by norm_num; omega)]
      unfold rowSse30
      rw [decide_eq_true hg, if_pos rfl]
      unfold fixedDown fixDown clamp
      rw [add_comm]
      exact Nat.mod_eq_of_lt (by omega)
    · rw [if_neg hg]
      refine pxByte_congr (fun c hc => ?_) i
      unfold rowSse30
      rw [decide_eq_false hg, if_neg (by simp)]
      by_cases hc1 : c = 1
      · subst hc1
        dsimp only
        rw [if_pos rfl, if_neg (by norm_num), lane30_zero]
      · dsimp only
        rw [if_neg hc1, if_pos (by omega), acc 16 y x c hx hc (by omega) (by omega)]
        have := bnd c hc
        rw [lane30_sixteen (by norm_num; omega) (by norm_num; omega)]
        unfold fixedHalf fixHalf clamp
        rw [add_comm]
        exact Nat.mod_eq_of_lt (by omega)
  exact ⟨fun y x c hy hx hc => (hpix y x hy hx).1 c hc, fun y x hy hx => (hpix y x hy hx).2, e4⟩

theorem acc30_pix (t : Rgb30) (o : Ar30Order) {src : List ℕ} {ss y x c : ℕ} {q : FilterWeights ℤ} {b : Bounds}
    (hlt : ∀ i, src.getD i 0 < 256) (hW : WeightsI16 q) (hc : c < 3)
    (bnd : -2 ^ 30 + 2 ^ 14 < wsum b.size (fun k => q.weight y k)
        (fun k => ((pix30 (fmtLE t o) src ss (b.start + k) x c : ℕ) : ℤ)) ∧
      wsum b.size (fun k => q.weight y k)
        (fun k => ((pix30 (fmtLE t o) src ss (b.start + k) x c : ℕ) : ℤ)) + 2 ^ 14 < 2 ^ 30) :
    acc30 (q.weights.drop (y * q.alignedSize)) (colRaw t o src ss b x c) b.size =
      16383 + wsum b.size (fun k => q.weight y k) (fun k => ((pix30 (fmtLE t o) src ss (b.start + k) x c : ℕ) : ℤ)) := by
  have e : wsum b.size (fun k => i16 ((q.weights.drop (y * q.alignedSize)).getD k 0))
      (fun k => ((colRaw t o src ss b x c k : ℕ) : ℤ)) =
      wsum b.size (fun k => q.weight y k) (fun k => ((pix30 (fmtLE t o) src ss (b.start + k) x c : ℕ) : ℤ)) := by
    apply wsum_congr
    · intro k hk
      have hwt : (q.weights.drop (y * q.alignedSize)).getD k 0 = q.weight y k := by
        simp [FilterWeights.weight, List.getD_eq_getElem?_getD, List.getElem?_drop]
      rw [hwt]
      exact i16_eq_self (v := q.weight y k) (hW y k).1 (by have := (hW y k).2; omega)
    · intro k hk
      refine congrArg (fun v : ℕ => (v : ℤ)) ?_
      unfold colRaw
      rw [raw30_eq (fmtLE t o) (fun i => Nat.mod_lt _ (by norm_num)) hc]
      unfold pix30
      simp only [Nat.mod_eq_of_lt (hlt _), Nat.mul_comm ss]
  unfold acc30
  rw [e]
  exact i32_eq_self (by norm_num; omega) (by norm_num; omega)

theorem vertical30Sse_spec (t : Rgb30) (o : Ar30Order) {cpu : Cpu} (hcpu : cpu.sse41 = true) {src dst : List ℕ}
    {ss ds width inn out : ℕ} {fw : FilterWeights ℚ}
    (hw0 : 0 < width) (hs : src.length = inn * ss) (hd : dst.length = out * ds)
    (hss : width * 4 ≤ ss) (hds : width * 4 ≤ ds) (hT : ValidTable fw inn out) (hP : PlainShape fw out)
    (hO : NoOverflow30At (numericalApproximation F32.rnd fw) out 1023)
    (hW : WeightsI16 (numericalApproximation F32.rnd fw)) (hb : ∀ v ∈ src, v < 256) :
    ∃ r, vertical30X86 cpu t o src ss fw dst ds width = some r ∧ r.length = dst.length ∧
      (∀ y x c, y < out → x < width → c < 3 → pix30 (fmtLE t o) r ds y x c =
        fixedDown 1023 (fw.bound y).size (fun k => (numericalApproximation F32.rnd fw).weight y k)
          (fun k => pix30 (fmtLE t o) src ss ((fw.bound y).start + k) x c)) ∧
      (∀ y x, y < out → x < width → pix30 (fmtLE t o) r ds y x 3 = 3) ∧
      (∀ y p, y < out → p < width * 4 → r.getD (y * ds + p) 0 < 256) ∧
      (∀ y p, y < out → width * 4 ≤ p → p < ds → r[y * ds + p]? = dst[y * ds + p]?) := by
  have hQ : ValidTable (numericalApproximation F32.rnd fw) inn out := hP.q_valid hT
  obtain ⟨r, e1, e2, e3, e4⟩ := vertical30Sse_raw t o hcpu hw0 hs hd hss hds hT hP
  have hbd : ∀ i, (numericalApproximation F32.rnd fw).bound i = fw.bound i := fun _ => rfl
  generalize hq : numericalApproximation F32.rnd fw = q at *
  have hlt : ∀ i, src.getD i 0 < 256 := fun i =>
    lt_of_le_of_lt (getD_le_of_forall (M := 255) (fun v hv => by have := hb v hv; omega) i) (by norm_num)
  have hpix : ∀ y x, y < out → x < width →
      (∀ c, c < 3 → pix30 (fmtLE t o) r ds y x c =
        fixedDown 1023 (fw.bound y).size (fun k => q.weight y k)
          (fun k => pix30 (fmtLE t o) src ss ((fw.bound y).start + k) x c)) ∧ pix30 (fmtLE t o) r ds y x 3 = 3 := by
    intro y x hy hx
    have hv : ∀ c, c < 3 → fixedDown 1023 (fw.bound y).size (fun k => q.weight y k)
          (fun k => pix30 (fmtLE t o) src ss ((fw.bound y).start + k) x c) < 1024 := by
      intro c _
      unfold fixedDown clamp
      omega
    apply pix30_of_px hv
    intro i hi
    rw [Nat.add_assoc, e3 y (x * 4 + i) hy (by omega)]
    refine congrArg some ?_
    unfold vVal30
    rw [show (x * 4 + i) / 4 = x by omega, show (x * 4 + i) % 4 = i by omega]
    refine pxByte_congr (fun c hc => ?_) i
    have bnd := wsum30At (n := (fw.bound y).size) (w := fun k => q.weight y k)
      (p := fun k => ((pix30 (fmtLE t o) src ss ((fw.bound y).start + k) x c : ℕ) : ℤ))
      (fun k => ⟨Int.natCast_nonneg _, by
        have : pix30 (fmtLE t o) src ss ((fw.bound y).start + k) x c < 1024 := by
          unfold pix30 comp30
          rw [if_neg (by omega)]
          exact Nat.mod_lt _ (by norm_num)
        omega⟩) (by have := hO y hy; rwa [hbd] at this)
    have e : acc30 (q.weights.drop (y * q.alignedSize)) (colRaw t o src ss (fw.bound y) x c) (fw.bound y).size =
        16383 + wsum (fw.bound y).size (fun k => q.weight y k)
          (fun k => ((pix30 (fmtLE t o) src ss ((fw.bound y).start + k) x c : ℕ) : ℤ)) :=
      acc30_pix t o hlt hW hc bnd
    rw [e, lane30_fifteen (by norm_num; omega) (by norm_num; omega)]
    unfold fixedDown fixDown
    rw [add_comm, show (2 ^ 14 - 1 : ℤ) = 16383 by norm_num]
  refine ⟨r, e1, e2, fun y x c hy hx hc => (hpix y x hy hx).1 c hc, fun y x hy hx => (hpix y x hy hx).2, ?_, e4⟩
  intro y p hy hp
  rw [List.getD_eq_getElem?_getD, e3 y p hy hp, Option.getD_some]
  unfold vVal30
  exact pxByte_lt _ _ _ _

end PicScale
