import Verif.Lemmas.NeonAr30V

/-! The two NEON passes over packed 10-bit images: components. -/

namespace PicScale

open Finset Spec

/-! ### only the window matters -/

theorem groups_congr {g8 g8' g4 g4' g1 g1' : ℕ → ℤ → ℤ} {n : ℕ} (a : ℤ)
    (h8 : ∀ j s, j + 8 < n → g8 j s = g8' j s) (h4 : ∀ j s, j + 4 < n → g4 j s = g4' j s)
    (h1 : ∀ j s, j < n → g1 j s = g1' j s) : groups g8 g4 g1 n a = groups g8' g4' g1' n a := by
  unfold groups
  have e8 := pureLoop_rel (R := Eq) (margin := 8) (step := 8) (size := n) (g := g8) (G := g8')
    (fun j s u hj e => by rw [e]; exact h8 j u hj) n 0 a a rfl
  have e4 := pureLoop_rel (R := Eq) (margin := 4) (step := 4) (size := n) (g := g4) (G := g4')
    (fun j s u hj e => by rw [e]; exact h4 j u hj) n (loopEnd 8 8 n n 0) _ _ e8
  exact pureLoop_rel (R := Eq) (margin := 0) (step := 1) (size := n) (g := g1) (G := g1')
    (fun j s u hj e => by rw [e]; exact h1 j u hj) n _ _ _ e4

theorem rowN_congr {w w' : ℕ → ℤ} {p p' : ℕ → ℕ} {n : ℕ} (hw : ∀ k, k < n → w k = w' k) (hp : ∀ k, k < n → p k = p' k) :
    rowN w p n = rowN w' p' n := by
  unfold rowN
  refine congrArg _ (groups_congr _ (fun j s hj => ?_) (fun j s hj => ?_) (fun j s hj => ?_))
  · unfold n8
    rw [hw j (by omega), hw (j + 1) (by omega), hw (j + 2) (by omega), hw (j + 3) (by omega), hw (j + 4) (by omega),
      hw (j + 5) (by omega), hw (j + 6) (by omega), hw (j + 7) (by omega), hp j (by omega), hp (j + 1) (by omega),
      hp (j + 2) (by omega), hp (j + 3) (by omega), hp (j + 5) (by omega), hp (j + 6) (by omega), hp (j + 7) (by omega)]
  · unfold n4
    rw [hw j (by omega), hw (j + 1) (by omega), hw (j + 2) (by omega), hw (j + 3) (by omega), hp j (by omega),
      hp (j + 2) (by omega), hp (j + 3) (by omega)]
  · unfold n1
    rw [hw j hj, hp j hj]

theorem rowR_congr {w w' : ℕ → ℤ} {p p' : ℕ → ℕ} {n : ℕ} (hw : ∀ k, k < n → w k = w' k) (hp : ∀ k, k < n → p k = p' k) :
    rowR w p n = rowR w' p' n := by
  unfold rowR
  refine congrArg _ (groups_congr _ (fun j s hj => ?_) (fun j s hj => ?_) (fun j s hj => ?_))
  · unfold r8
    rw [hw j (by omega), hw (j + 1) (by omega), hw (j + 2) (by omega), hw (j + 3) (by omega), hw (j + 4) (by omega),
      hw (j + 5) (by omega), hw (j + 6) (by omega), hw (j + 7) (by omega), hp j (by omega), hp (j + 1) (by omega),
      hp (j + 2) (by omega), hp (j + 3) (by omega), hp (j + 4) (by omega), hp (j + 5) (by omega), hp (j + 6) (by omega),
      hp (j + 7) (by omega)]
  · unfold r4
    rw [hw j (by omega), hw (j + 1) (by omega), hw (j + 2) (by omega), hw (j + 3) (by omega), hp j (by omega),
      hp (j + 1) (by omega), hp (j + 2) (by omega), hp (j + 3) (by omega)]
  · unfold r1
    rw [hw j hj, hp j hj]

theorem accR_congr {w w' : ℕ → ℤ} {p p' : ℕ → ℕ} : ∀ {n : ℕ}, (∀ k, k < n → w k = w' k) → (∀ k, k < n → p k = p' k) →
    accR w p n = accR w' p' n
  | 0, _, _ => rfl
  | 1, hw, hp => by unfold accR; rw [hw 0 (by omega), hp 0 (by omega)]
  | n + 2, hw, hp => by
    unfold accR
    rw [accR_congr (fun k hk => hw k (by omega)) (fun k hk => hp k (by omega)), hw (n + 1) (by omega), hp (n + 1) (by omega)]

/-- One component of a pixel written by the horizontal pass in row `y` of `H`; `r`: the `rdm` handlers are selected. -/
def hComp30 (r : Bool) (H y : ℕ) (w : ℕ → ℤ) (p : ℕ → ℕ) (n : ℕ) : ℕ :=
  if r = true ∧ y < 4 * (H / 4) then rowR w p n else rowN w p n

/-- One component of pixel `x` written by the vertical pass in a row of `width`. -/
def vComp30 (r : Bool) (width x : ℕ) (w : ℕ → ℤ) (p : ℕ → ℕ) (n : ℕ) : ℕ :=
  if r = true then colRdm width x w p n else colN w p n

theorem hComp30_congr {r : Bool} {H y : ℕ} {w w' : ℕ → ℤ} {p p' : ℕ → ℕ} {n : ℕ} (hw : ∀ k, k < n → w k = w' k)
    (hp : ∀ k, k < n → p k = p' k) : hComp30 r H y w p n = hComp30 r H y w' p' n := by
  unfold hComp30
  rw [rowN_congr hw hp, rowR_congr hw hp]

theorem vComp30_congr {r : Bool} {width x : ℕ} {w w' : ℕ → ℤ} {p p' : ℕ → ℕ} {n : ℕ} (hw : ∀ k, k < n → w k = w' k)
    (hp : ∀ k, k < n → p k = p' k) : vComp30 r width x w p n = vComp30 r width x w' p' n := by
  unfold vComp30 colRdm colN colR
  rw [tapsF_congr hw hp, accR_congr hw hp, wsum_congr hw (p' := fun k => (p' k : ℤ)) (fun k hk => by rw [hp k hk])]

theorem rowN_lt (w : ℕ → ℤ) (p : ℕ → ℕ) (n : ℕ) : rowN w p n < 1024 := by
  have := narrowQ_le 10 (groups (n8 w p) (n4 w p) (n1 w p) n NEON16_ROUNDING); unfold rowN; omega
theorem rowR_lt (w : ℕ → ℤ) (p : ℕ → ℕ) (n : ℕ) : rowR w p n < 1024 := by
  have := narrowRdm_le (groups (r8 w p) (r4 w p) (r1 w p) n 8); unfold rowR; omega
theorem hComp30_lt (r : Bool) (H y : ℕ) (w : ℕ → ℤ) (p : ℕ → ℕ) (n : ℕ) : hComp30 r H y w p n < 1024 := by
  unfold hComp30; split_ifs
  · exact rowR_lt _ _ _
  · exact rowN_lt _ _ _
theorem vComp30_lt (r : Bool) (width x : ℕ) (w : ℕ → ℤ) (p : ℕ → ℕ) (n : ℕ) : vComp30 r width x w p n < 1024 := by
  unfold vComp30 colRdm
  split_ifs
  · have := narrowRdm5_le (accR w p n); unfold colR; omega
  · exact saturate30_lt _
  · have := narrowQ_le 10 (tapsF tapQ NEON16_ROUNDING w p n); unfold colN; omega

/-! ### the horizontal pass -/

/-- Byte `i` of pixel `x` written by the horizontal pass. -/
def hByteN (h : (ℕ → ℤ) → (ℕ → ℕ) → ℕ → ℕ) (t : Rgb30) (o : Ar30Order) (q : FilterWeights ℤ) (f : ℕ → ℕ) (x : ℕ) : ℕ → ℕ :=
  pxByte t o (fun c => h (fun k => (q.kernel x).getD k 0) (tapRaw t o (q.bound x) f c) (q.bound x).size)

theorem hByteN_loc {h : (ℕ → ℤ) → (ℕ → ℕ) → ℕ → ℕ} {t : Rgb30} {o : Ar30Order} {q : FilterWeights ℤ} {f g : ℕ → ℕ} {x : ℕ}
    (hc : ∀ w p p' n, (∀ k, k < n → p k = p' k) → h w p n = h w p' n)
    (e : ∀ i, i < ((q.bound x).start + (q.bound x).size) * 4 → f i = g i) (i : ℕ) : hByteN h t o q f x i = hByteN h t o q g x i := by
  unfold hByteN
  refine pxByte_congr (fun c _ => hc _ _ _ _ fun k hk => ?_) i
  unfold tapRaw
  exact raw30_congr _ (fun i hi => by rw [e _ (by omega)]) c

theorem horizontal30Neon_raw (rdm : Bool) (s : Workload) (t : Rgb30) (o : Ar30Order) {src dst : List ℕ}
    {ss ds H inn out : ℕ} {fw : FilterWeights ℚ}
    (hin : 0 < inn) (hout : 0 < out) (hs : src.length = H * ss) (hd : dst.length = H * ds)
    (hss : inn * 4 ≤ ss) (hds : out * 4 ≤ ds) (hT : ValidTable fw inn out) (hP : PlainShape fw out) :
    ∃ r, horizontal30Neon rdm s t o src ss fw dst ds = some r ∧ r.length = dst.length ∧
      (∀ y x i, y < H → x < out → i < 4 → r[y * ds + x * 4 + i]? =
        some (hByteN (hComp30 (useRdm30 rdm s) H y) t o (numericalApproximation F32.rnd fw)
          (fun i => src.getD (y * ss + i) 0) x i)) ∧
      (∀ y p, y < H → out * 4 ≤ p → p < ds → r[y * ds + p]? = dst[y * ds + p]?) := by
  have hQ : ValidTable (numericalApproximation F32.rnd fw) inn out := hP.q_valid hT
  unfold horizontal30Neon
  generalize hq : numericalApproximation F32.rnd fw = q at *
  have hkl : ∀ x, x < out → (q.bound x).size ≤ (q.kernel x).length := fun x hx => by
    rw [hQ.shape.kernel_length hx]; exact hQ.size_le x hx
  have hins : ∀ x, x < out → ((q.bound x).start + (q.bound x).size) * 4 ≤ ss :=
    fun x hx => le_trans (Nat.mul_le_mul_right _ (hQ.inside x hx)) hss
  let h4 : (ℕ → ℤ) → (ℕ → ℕ) → ℕ → ℕ := if useRdm30 rdm s = true then rowR else rowN
  have h4c : ∀ w p p' n, (∀ k, k < n → p k = p' k) → h4 w p n = h4 w p' n := by
    intro w p p' n h
    simp only [h4]
    split_ifs
    · exact rowR_congr (fun _ _ => rfl) h
    · exact rowN_congr (fun _ _ => rfl) h
  let val4 : (ℕ → ℕ) → ℕ → ℕ → ℕ := fun f x c => hByteN h4 t o q f x c
  let val1 : (ℕ → ℕ) → ℕ → ℕ → ℕ := fun f x c => hByteN rowN t o q f x c
  have ok : HOK 4 ss ds out 0 val1 (fun s d => simdRow 4 (ar30Neon t o s) d q) := by
    refine ⟨fun f g x c hx _ h => hByteN_loc (h := rowN) (fun w p p' n h => rowN_congr (w := w) (w' := w) (fun _ _ => rfl) h)
      (fun i hi => h i (lt_of_lt_of_le hi (hins x hx))) c, ?_⟩
    intro s d hsl hdl
    obtain ⟨r, h1, h2, h3, h4⟩ := rowPass_spec (N := 4) (pix := fun w b => do
        let l ← ar30Neon t o s [0] w b
        l[0]?)
      (fin := fun v : ℕ => v) (dst := d) hQ.shape (by omega)
      (val := fun x c => val1 (fun i => s.getD i 0) x c)
      (fun x hx => by
        have := hins x hx
        rw [ar30Neon_ok t o (src := s) (offs := [0]) (w := q.kernel x) (b := q.bound x)
          ⟨hQ.size_pos x hx, hkl x hx, fun o ho => by rw [List.mem_singleton] at ho; omega⟩]
        simp only [Option.bind_eq_bind, Option.bind_some, List.map_cons, List.map_nil, List.getElem?_cons_zero]
        simp only [val1, hByteN]
        have e0 : rowFn s 0 = fun i => s.getD i 0 := by funext i; unfold rowFn; rw [Nat.zero_add]
        rw [e0])
    exact ⟨r, h1, by omega, h3, h4⟩
  have rows : ∀ (s' : List ℕ) (offs : List ℕ) (w : List ℤ) (b : Bounds), HPre 4 s' offs w b →
      (if useRdm30 rdm s = true then ar30Rdm t o s' else ar30Neon t o s') offs w b =
      some (offs.map fun off => (List.range 4).map (pxByte t o fun c =>
        h4 (fun k => w.getD k 0) (tapRaw t o b (rowFn s' off) c) b.size)) := by
    intro s' offs w b hp
    simp only [h4]
    split_ifs
    · exact ar30Rdm_ok t o hp
    · exact ar30Neon_ok t o hp
  have ok4 : H4OK 4 ss ds out 0 val4 (fun s' ss d ds => simdRows4 4
      (if useRdm30 rdm s = true then ar30Rdm t o s' else ar30Neon t o s') ss d ds q) := by
    intro s' d hsl hdl
    obtain ⟨r, h1, h2, h3, h4⟩ := rows4Pass_spec (N := 4) (pix4 := fun w b => do
        let l ← (if useRdm30 rdm s = true then ar30Rdm t o s' else ar30Neon t o s') [0, ss, ss * 2, ss * 3] w b
        let r0 ← l[0]?
        let r1 ← l[1]?
        let r2 ← l[2]?
        let r3 ← l[3]?
        some (r0, r1, r2, r3))
      (fin := fun v : ℕ => v) (dst := d) (stride := ds) hQ.shape hdl hds
      (val := fun x qq c => val4 (fun i => s'.getD (ss * qq + i) 0) x c)
      (fun x hx => by
        have := hins x hx
        rw [rows s' [0, ss, ss * 2, ss * 3] (q.kernel x) (q.bound x) ⟨hQ.size_pos x hx, hkl x hx, fun o ho => by
            simp only [List.mem_cons, List.not_mem_nil, or_false] at ho; omega⟩]
        simp only [Option.bind_eq_bind, Option.bind_some, List.map_cons, List.map_nil, List.getElem?_cons_zero,
          List.getElem?_cons_succ]
        have e0 : ∀ off, rowFn s' off = fun i => s'.getD (off + i) 0 := fun off => rfl
        simp only [val4, hByteN, e0, Nat.mul_zero, Nat.mul_one])
    exact ⟨r, h1, by omega, h3, h4⟩
  have hss0 : 0 < ss := by omega
  have hds0 : 0 < ds := by omega
  obtain ⟨r, e1, e2, e3, e4⟩ := horizontalDispatch_spec2 (H := H) ok ok4
    (fun f g x c hx _ h => hByteN_loc h4c (fun i hi => h i (lt_of_lt_of_le hi (hins x hx))) c)
    (src := image30 src 0 0 ss) (dst := image30 dst 0 0 ds) (image30_stride hss0) (image30_stride hds0) hss0 hds0 hds hs hd
  refine ⟨r, by dsimp only; rw [e1]; rfl, e2, fun y x i hy hx hi => ?_, e4⟩
  rw [e3 y x i hy hx hi]
  congr 1
  by_cases hy4 : y < 4 * (H / 4)
  · rw [if_pos hy4]
    simp only [val4, h4]
    unfold hByteN hComp30
    by_cases hr : useRdm30 rdm s = true
    · refine pxByte_congr (fun c _ => ?_) i
      rw [if_pos hr, if_pos (And.intro hr hy4)]
      simp only [image30]
    · refine pxByte_congr (fun c _ => ?_) i
      rw [if_neg hr, if_neg (fun h => hr h.1)]
      simp only [image30]
  · rw [if_neg hy4]
    simp only [val1]
    unfold hByteN hComp30
    refine pxByte_congr (fun c _ => ?_) i
    rw [if_neg (fun h => hy4 h.2)]
    simp only [image30]

theorem pix30_lt (t : Rgb30) (o : Ar30Order) (src : List ℕ) (ss y x : ℕ) {c : ℕ} (hc : c < 3) :
    pix30 (fmtLE t o) src ss y x c < 1024 := by
  unfold pix30 comp30
  rw [if_neg (by omega)]
  exact Nat.mod_lt _ (by norm_num)

theorem horizontal30Neon_fun (rdm : Bool) (s : Workload) (t : Rgb30) (o : Ar30Order) {src dst : List ℕ}
    {ss ds H inn out : ℕ} {fw : FilterWeights ℚ}
    (hin : 0 < inn) (hout : 0 < out) (hs : src.length = H * ss) (hd : dst.length = H * ds)
    (hss : inn * 4 ≤ ss) (hds : out * 4 ≤ ds) (hT : ValidTable fw inn out) (hP : PlainShape fw out)
    (hb : ∀ v ∈ src, v < 256) :
    ∃ r, horizontal30Neon rdm s t o src ss fw dst ds = some r ∧ r.length = dst.length ∧
      (∀ y x c, y < H → x < out → c < 3 → pix30 (fmtLE t o) r ds y x c =
        hComp30 (useRdm30 rdm s) H y (fun k => (numericalApproximation F32.rnd fw).weight x k)
          (fun k => pix30 (fmtLE t o) src ss y ((fw.bound x).start + k) c) (fw.bound x).size) ∧
      (∀ y x, y < H → x < out → pix30 (fmtLE t o) r ds y x 3 = 3) ∧
      (∀ y p, y < H → out * 4 ≤ p → p < ds → r[y * ds + p]? = dst[y * ds + p]?) := by
  have hQ : ValidTable (numericalApproximation F32.rnd fw) inn out := hP.q_valid hT
  obtain ⟨r, e1, e2, e3, e4⟩ := horizontal30Neon_raw rdm s t o hin hout hs hd hss hds hT hP
  have hbd : ∀ i, (numericalApproximation F32.rnd fw).bound i = fw.bound i := fun _ => rfl
  generalize hq : numericalApproximation F32.rnd fw = q at *
  have hlt : ∀ i, src.getD i 0 < 256 := fun i =>
    lt_of_le_of_lt (getD_le_of_forall (M := 255) (fun v hv => by have := hb v hv; omega) i) (by norm_num)
  refine ⟨r, e1, e2, ?_⟩
  have hpix : ∀ y x, y < H → x < out →
      (∀ c, c < 3 → pix30 (fmtLE t o) r ds y x c =
        hComp30 (useRdm30 rdm s) H y (fun k => q.weight x k)
          (fun k => pix30 (fmtLE t o) src ss y ((fw.bound x).start + k) c) (fw.bound x).size) ∧
      pix30 (fmtLE t o) r ds y x 3 = 3 := by
    intro y x hy hx
    apply pix30_of_px (fun c _ => hComp30_lt _ _ _ _ _ _)
    intro i hi
    rw [e3 y x i hy hx hi]
    refine congrArg some ?_
    unfold hByteN
    rw [hbd]
    refine pxByte_congr (fun c hc => hComp30_congr (fun k hk => ?_) fun k hk => ?_) i
    · have hsz := hQ.size_le x hx
      rw [hbd] at hsz
      exact FilterWeights.kernel_getD q x k 0 (by omega)
    · unfold tapRaw
      rw [raw30_eq (fmtLE t o) (fun i => Nat.mod_lt _ (by norm_num)) hc]
      unfold pix30
      simp only [Nat.mod_eq_of_lt (hlt _), Nat.add_assoc]
  exact ⟨fun y x c hy hx hc => (hpix y x hy hx).1 c hc, fun y x hy hx => (hpix y x hy hx).2, e4⟩

/-! ### the vertical pass -/

theorem vertical30Neon_fun (rdm : Bool) (s : Workload) (t : Rgb30) (o : Ar30Order) {src dst : List ℕ}
    {ss ds width inn out : ℕ} {fw : FilterWeights ℚ}
    (hw0 : 0 < width) (hs : src.length = inn * ss) (hd : dst.length = out * ds)
    (hss : width * 4 ≤ ss) (hds : width * 4 ≤ ds) (hT : ValidTable fw inn out) (hP : PlainShape fw out)
    (hb : ∀ v ∈ src, v < 256) :
    ∃ r, vertical30Neon rdm s t o src ss fw dst ds width = some r ∧ r.length = dst.length ∧
      (∀ y x c, y < out → x < width → c < 3 → pix30 (fmtLE t o) r ds y x c =
        vComp30 (useRdm30 rdm s) width x (fun k => (numericalApproximation F32.rnd fw).weight y k)
          (fun k => pix30 (fmtLE t o) src ss ((fw.bound y).start + k) x c) (fw.bound y).size) ∧
      (∀ y x, y < out → x < width → pix30 (fmtLE t o) r ds y x 3 = 3) ∧
      (∀ y p, y < out → p < width * 4 → r.getD (y * ds + p) 0 < 256) ∧
      (∀ y p, y < out → width * 4 ≤ p → p < ds → r[y * ds + p]? = dst[y * ds + p]?) := by
  have hQ : ValidTable (numericalApproximation F32.rnd fw) inn out := hP.q_valid hT
  have hbd : ∀ i, (numericalApproximation F32.rnd fw).bound i = fw.bound i := fun _ => rfl
  unfold vertical30Neon
  generalize hq : numericalApproximation F32.rnd fw = q at *
  have hlt : ∀ i, src.getD i 0 < 256 := fun i =>
    lt_of_le_of_lt (getD_le_of_forall (M := 255) (fun v hv => by have := hb v hv; omega) i) (by norm_num)
  let val : ℕ → ℕ → ℕ := fun y p => pxByte t o (fun c => vComp30 (useRdm30 rdm s) width (p / 4)
    (fun k => (q.weights.drop (y * q.alignedSize)).getD k 0) (colRaw t o src ss (q.bound y) (p / 4) c) (q.bound y).size) (p % 4)
  have ok : VOK ss (width * 4) src q.bounds q.alignedSize q.weights
      (fun b s' d ss w => if useRdm30 rdm s = true then rdmColumn30 t o b s' d ss w else neonColumn30 t o b s' d ss w) out val := by
    intro y b hy hbb d hdl
    have hbe : b = q.bound y := (getD_eq_of_getElem? hbb).symm
    subst hbe
    have hsz := hQ.size_pos y hy
    have hal : (y + 1) * q.alignedSize ≤ out * q.alignedSize := Nat.mul_le_mul_right _ hy
    rw [Nat.add_mul] at hal
    have hlen := hQ.weights_len
    have hle := hQ.size_le y hy
    have hrow : ((q.bound y).start + (q.bound y).size - 1) * ss + width * 4 ≤ src.length := by
      have h1 := hQ.inside y hy
      have h2 : ((q.bound y).start + (q.bound y).size - 1 + 1) * ss ≤ inn * ss := Nat.mul_le_mul_right _ (by omega)
      rw [Nat.add_mul] at h2
      omega
    have hwl : (q.bound y).size ≤ (q.weights.drop (y * q.alignedSize)).length := by rw [List.length_drop]; omega
    by_cases hr : useRdm30 rdm s = true
    · obtain ⟨r, h1, h2, h3⟩ := rdmColumn30_spec (t := t) (o := o) (src := src) (dst := d) (stride := ss) (width := width)
        (w := q.weights.drop (y * q.alignedSize)) (b := q.bound y) hsz hwl hdl hw0 hrow hlt
      refine ⟨r, by show (if _ then _ else _) = _; rw [if_pos hr]; exact h1, by omega, fun p hp => ?_⟩
      rw [h3 p (by omega)]
      simp only [val, vComp30, if_pos hr]
    · obtain ⟨r, h1, h2, h3⟩ := neonColumn30_spec (t := t) (o := o) (src := src) (dst := d) (stride := ss) (width := width)
        (w := q.weights.drop (y * q.alignedSize)) (b := q.bound y) hwl hdl hrow
      refine ⟨r, by show (if _ then _ else _) = _; rw [if_neg hr]; exact h1, by omega, fun p hp => ?_⟩
      rw [h3 p (by omega)]
      simp only [val, vComp30, if_neg hr]
  have hss0 : 0 < ss := by omega
  have hds0 : 0 < ds := by omega
  obtain ⟨r, e1, e2, e3, e4⟩ := verticalDispatch_spec (W := ℤ) (aligned := q.alignedSize)
    (weights := q.weights) (src := image30 src 0 0 ss) (dst := image30 dst width 0 ds) (N := 4)
    (image30_stride hss0) (image30_stride hds0) hds0 hds hd hQ.bounds_len (le_of_eq hQ.weights_len.symm) ok
  simp only [image30] at e3 e4
  have hpix : ∀ y x, y < out → x < width →
      (∀ c, c < 3 → pix30 (fmtLE t o) r ds y x c =
        vComp30 (useRdm30 rdm s) width x (fun k => q.weight y k)
          (fun k => pix30 (fmtLE t o) src ss ((fw.bound y).start + k) x c) (fw.bound y).size) ∧ pix30 (fmtLE t o) r ds y x 3 = 3 := by
    intro y x hy hx
    apply pix30_of_px (fun c _ => vComp30_lt _ _ _ _ _ _)
    intro i hi
    rw [Nat.add_assoc, e3 y (x * 4 + i) hy (by omega)]
    refine congrArg some ?_
    simp only [val]
    rw [show (x * 4 + i) / 4 = x by omega, show (x * 4 + i) % 4 = i by omega, hbd]
    refine pxByte_congr (fun c hc => vComp30_congr (fun k hk => ?_) fun k hk => ?_) i
    · simp [FilterWeights.weight, List.getD_eq_getElem?_getD, List.getElem?_drop]
    · unfold colRaw
      rw [raw30_eq (fmtLE t o) (fun i => Nat.mod_lt _ (by norm_num)) hc]
      unfold pix30
      simp only [Nat.mod_eq_of_lt (hlt _), Nat.mul_comm ss]
  refine ⟨r, ?_, e2, fun y x c hy hx hc => (hpix y x hy hx).1 c hc, fun y x hy hx => (hpix y x hy hx).2, ?_, e4⟩
  · show ((verticalDispatch 4 (image30 src 0 0 ss) (image30 dst width 0 ds) q.bounds q.alignedSize q.weights
        (fun b s' d ss w => if useRdm30 rdm s = true then rdmColumn30 t o b s' d ss w else neonColumn30 t o b s' d ss w)).bind
        fun d => some d.buffer) = some r
    rw [e1]; rfl
  · intro y p hy hp
    rw [List.getD_eq_getElem?_getD, e3 y p hy hp, Option.getD_some]
    exact pxByte_lt _ _ _ _

end PicScale
