import Verif.Lemmas.NeonPass
import Verif.Lemmas.X86Resize
import Verif.Lemmas.SimdPassG
import Verif.Props.X86

/-! The NEON resize as a whole. -/

namespace PicScale

open Finset Spec

/-- The weight of tap `j` at element `p` of a row of `T` elements in a vertical NEON handler. -/
def NeonV.weightAt (k : NeonV) (q : FilterWeights ℤ) (T y p j : ℕ) : ℤ :=
  match k with
  | .full _ =>
    if (q.bound y).size = 3 ∧ j = 2 ∧ 8 ≤ T % 16 ∧ T / 16 * 16 + 4 ≤ p ∧ p < T / 16 * 16 + 8 then q.weight y 1
    else q.weight y j
  | .rdm =>
    if (q.bound y).size = 4 ∧ j = 3 ∧ 16 ≤ T % 32 ∧ T / 32 * 32 ≤ p ∧ p < T / 32 * 32 + 16 then q.weight y 2
    else q.weight y j

/-- Value of a vertical NEON handler at element `p` of a row of `T` elements, with the saturating accumulators. -/
def NeonV.value (k : NeonV) (q : FilterWeights ℤ) (T y p : ℕ) (P : ℕ → ℕ) : ℕ :=
  match k with
  | .full D => narrow32 D (tapFold (tapX D) (neonRnd D) (NeonV.weightAt (.full D) q T y p)
      (fun j => P ((q.bound y).start + j)) (q.bound y).size)
  | .rdm => narrow16 (tapFold tapR RDM_ROUNDING (NeonV.weightAt .rdm q T y p)
      (fun j => P ((q.bound y).start + j)) (q.bound y).size)

theorem clampNat_le (v : ℤ) : (max 0 (min v 255)).toNat ≤ 255 := by omega

theorem NeonV.value_le (k : NeonV) (q : FilterWeights ℤ) (T y p : ℕ) (P : ℕ → ℕ) : k.value q T y p P ≤ 255 := by
  cases k
  · show narrow32 _ _ ≤ 255
    unfold narrow32
    omega
  · show narrow16 _ ≤ 255
    unfold narrow16
    omega

/-- The value of a vertical handler when its accumulator cannot saturate: the sums in terms of the weights it used. -/
theorem NeonV.value_eq {k : NeonV} {q : FilterWeights ℤ} {out T y p : ℕ} (hy : y < out) (hW : I16Weights q)
    (hO : NoOverflow30 q out) (h16 : k = .rdm → NoOverflow16 q out) {P : ℕ → ℕ} (hP : ∀ i, P i ≤ 255)
    (hg : ∀ j, j < (q.bound y).size → k.weightAt q T y p j = q.weight y j) :
    k.value q T y p P = match k with
      | .full _ => fixedRoundDown (q.bound y).size (fun j => q.weight y j) (fun j => P ((q.bound y).start + j))
      | .rdm => fixedLow (q.bound y).size (fun j => q.weight y j) (fun j => P ((q.bound y).start + j)) := by
  cases k with
  | full D =>
    show narrow32 D _ = _
    rw [tapFold_congr (W' := fun j => q.weight y j) (P' := fun j => P ((q.bound y).start + j))
      fun j hj => ⟨hg j hj, rfl⟩]
    have h1 := (tapFold_eq (tapX_ok D) (init := neonRnd D) (W := fun j => q.weight y j)
      (P := fun j => P ((q.bound y).start + j)) (fun j => hP _) (fun j => hW.weight y j) (n := (q.bound y).size) (by
        have := budget32 (D := D) (v := fun j => q.weight y j) (le_refl (q.bound y).size) (hO y hy)
        rw [abs_of_nonneg (neonRnd_nonneg D)]
        exact this)).1
    dsimp only at h1 ⊢
    rw [sum_dbl] at h1
    rw [h1, narrow32_eq]
    rfl
  | rdm =>
    show narrow16 _ = _
    rw [tapFold_congr (W' := fun j => q.weight y j) (P' := fun j => P ((q.bound y).start + j))
      fun j hj => ⟨hg j hj, rfl⟩]
    have h1 := (tapFold_eq tapR_ok (init := RDM_ROUNDING) (W := fun j => q.weight y j)
      (P := fun j => P ((q.bound y).start + j)) (fun j => hP _) (fun j => hW.weight y j) (n := (q.bound y).size) (by
        have := budget16 (h16 rfl y hy)
        rw [show |RDM_ROUNDING| = 32 by decide]
        exact this)).1
    dsimp only at h1 ⊢
    rw [h1, show RDM_ROUNDING = 32 from rfl, narrow16_eq]
    rfl

/-- The 32-bit handlers also cannot overflow with the weights they use by mistake. -/
theorem NeonV.value_full {D : Bool} {q : FilterWeights ℤ} {out T y p : ℕ} (hy : y < out) (hW : I16Weights q)
    (hO : NoOverflow30 q out) {P : ℕ → ℕ} (hP : ∀ i, P i ≤ 255) :
    NeonV.value (.full D) q T y p P = fixedRoundDown (q.bound y).size (NeonV.weightAt (.full D) q T y p)
      (fun j => P ((q.bound y).start + j)) := by
  have hw : ∀ j, -32768 ≤ NeonV.weightAt (.full D) q T y p j ∧ NeonV.weightAt (.full D) q T y p j ≤ 32767 := by
    intro j
    show _ ≤ (if _ then _ else _) ∧ (if _ then _ else _) ≤ _
    split_ifs
    · exact hW.weight y 1
    · exact hW.weight y j
  have hO' : (∑ k ∈ range (q.bound y).size, |NeonV.weightAt (.full D) q T y p k|) * 255 + 2 ^ 14 < 2 ^ 30 := by
    by_cases h3 : (q.bound y).size = 3
    · have : ∑ k ∈ range (q.bound y).size, |NeonV.weightAt (.full D) q T y p k| ≤
          ∑ k ∈ range (q.bound y).size, (32768 : ℤ) := sum_le_sum fun k _ => by
        have := hw k
        rw [abs_le]; omega
      rw [sum_const, card_range, nsmul_eq_mul, h3] at this
      rw [h3]
      norm_num at this ⊢
      omega
    · have : ∀ k, NeonV.weightAt (.full D) q T y p k = q.weight y k := fun k => by
        show (if _ then _ else _) = _
        rw [if_neg (fun h => h3 h.1)]
      simp only [this]
      exact hO y hy
  have h1 := (tapFold_eq (tapX_ok D) (init := neonRnd D) (W := NeonV.weightAt (.full D) q T y p)
      (P := fun j => P ((q.bound y).start + j)) (fun j => hP _) hw (n := (q.bound y).size) (by
        have := budget32 (D := D) (v := NeonV.weightAt (.full D) q T y p) (le_refl (q.bound y).size) hO'
        rw [abs_of_nonneg (neonRnd_nonneg D)]
        exact this)).1
  show narrow32 D _ = _
  rw [sum_dbl] at h1
  rw [h1, narrow32_eq]
  rfl

/-- The weights are right everywhere if there is no 3-tap (4-tap) window, or no 8 (16) element block. -/
theorem NeonV.weightAt_eq {k : NeonV} {q : FilterWeights ℤ} {T y : ℕ}
    (h : match k with
      | .full _ => (q.bound y).size ≠ 3 ∨ T % 16 < 8
      | .rdm => (q.bound y).size ≠ 4 ∨ T % 32 < 16) (p j : ℕ) : k.weightAt q T y p j = q.weight y j := by
  cases k
  · show (if _ then _ else _) = _
    rw [if_neg]
    dsimp only at h
    omega
  · show (if _ then _ else _) = _
    rw [if_neg]
    dsimp only at h
    omega

/-- Any vertical NEON handler, on bytes. -/
theorem verticalNeon_pass {k : NeonV} {N : ℕ} {src dst : Image ℕ} {fw : FilterWeights ℤ} (hN : 1 ≤ N)
    (hs : src.validate N = .ok ()) (hd : dst.validate N = .ok ())
    (hw : src.width = dst.width) (hdw : 0 < dst.width) (hT : ValidTable fw src.height dst.height)
    (hM : ∀ v ∈ src.buffer, v ≤ 255) :
    ∃ out, verticalNeon k N src dst fw = some out ∧ SameShape out dst ∧ PaddingKept N dst out ∧
      ∀ y x c, y < dst.height → x < dst.width → c < N →
        sample out.buffer (dst.strideOf N) N y x c = some (k.value fw (src.width * N) y (x * N + c)
          (fun y' => pxD 0 src.buffer (src.strideOf N) N y' x c)) := by
  obtain ⟨r, e1, e2, e3, e4⟩ := verticalG_raw (N := N) (src := src) (dst := dst) (fw := fw)
    (column := fun b s d ss w => k.column b s d ss w)
    (V := fun y p => k.value fw (src.width * N) y p
      (fun y' => pxD 0 src.buffer (src.strideOf N) N y' (p / N) (p % N)))
    (fun y d hy hdl hp => by
      have px : ∀ p j, colb src.buffer (src.strideOf N) (fw.bound y) p j =
          pxD 0 src.buffer (src.strideOf N) N ((fw.bound y).start + j) (p / N) (p % N) := by
        intro p j
        unfold colb
        rw [byte_mod hM]
        have hp0 : p / N * N + p % N = p := Nat.div_add_mod' p N
        simp only [pxD, sample, List.getD_eq_getElem?_getD]
        rw [Nat.add_assoc _ (p / N * N), hp0, Nat.mul_comm]
      cases k with
      | full D =>
        obtain ⟨r, h1, h2, h3⟩ := neonColumn_spec (D := D) hp
        refine ⟨r, h1, h2, fun p hpl => ?_⟩
        rw [h3 p hpl, hdl, ← hw]
        show some (narrow32 D _) = some (narrow32 D _)
        congr 2
        refine tapFold_congr fun j hj => ⟨?_, px p j⟩
        unfold fullW
        rw [drop_getD_weight, drop_getD_weight]
        rfl
      | rdm =>
        obtain ⟨r, h1, h2, h3⟩ := neonRdmColumn_spec hp
        refine ⟨r, h1, h2, fun p hpl => ?_⟩
        rw [h3 p hpl, hdl, ← hw]
        show some (narrow16 _) = some (narrow16 _)
        congr 2
        refine tapFold_congr fun j hj => ⟨?_, px p j⟩
        unfold rdmW
        rw [drop_getD_weight, drop_getD_weight]
        rfl)
    hN hs hd hw hdw hT
  obtain ⟨p1, p2⟩ := paddingKept_raw hN hd e2 e4
  refine ⟨_, e1, p1, p2, fun y x c hy hx hc => ?_⟩
  unfold sample
  rw [e3 y x c hy hx hc, show (x * N + c) / N = x by rw [Nat.mul_comm, Nat.mul_add_div hN, Nat.div_eq_of_lt hc, Nat.add_zero],
    show (x * N + c) % N = c by rw [Nat.mul_comm, Nat.mul_add_mod, Nat.mod_eq_of_lt hc]]

/-- Every vertical handler returns, whatever the samples. -/
theorem verticalNeon_total {k : NeonV} {N : ℕ} {src dst : Image ℕ} {fw : FilterWeights ℤ} (hN : 1 ≤ N)
    (hs : src.validate N = .ok ()) (hd : dst.validate N = .ok ())
    (hw : src.width = dst.width) (hdw : 0 < dst.width) (hT : ValidTable fw src.height dst.height) :
    ∃ out, verticalNeon k N src dst fw = some out ∧ SameShape out dst ∧ PaddingKept N dst out := by
  have key : ∀ y, ∃ v : ℕ → ℕ, ∀ d : List ℕ, d.length = dst.width * N →
      VPre src.buffer (src.strideOf N) (fw.weights.drop (y * fw.alignedSize)) (fw.bound y) d.length →
      ∃ r, k.column (fw.bound y) src.buffer d (src.strideOf N) (fw.weights.drop (y * fw.alignedSize)) =
        some r ∧ r.length = d.length ∧ ∀ p, p < d.length → r[p]? = some (v p) := by
    intro y
    cases k with
    | full D =>
      refine ⟨fun p => neonVal (tapX D) (neonRnd D) (narrow32 D) src.buffer (src.strideOf N) (fw.bound y)
        (fullW (fw.weights.drop (y * fw.alignedSize)) (fw.bound y).size (dst.width * N) p) p, fun d hdl hp => ?_⟩
      obtain ⟨r, h1, h2, h3⟩ := neonColumn_spec (D := D) hp
      exact ⟨r, h1, h2, fun p hpl => by rw [h3 p hpl, hdl]⟩
    | rdm =>
      refine ⟨fun p => neonVal tapR RDM_ROUNDING narrow16 src.buffer (src.strideOf N) (fw.bound y)
        (rdmW (fw.weights.drop (y * fw.alignedSize)) (fw.bound y).size (dst.width * N) p) p, fun d hdl hp => ?_⟩
      obtain ⟨r, h1, h2, h3⟩ := neonRdmColumn_spec hp
      exact ⟨r, h1, h2, fun p hpl => by rw [h3 p hpl, hdl]⟩
  choose V hV using key
  obtain ⟨r, e1, e2, _, e4⟩ := verticalG_raw (N := N) (src := src) (dst := dst) (fw := fw)
    (column := fun b s d ss w => k.column b s d ss w) (V := V)
    (fun y d _ hdl hp => hV y d hdl hp) hN hs hd hw hdw hT
  obtain ⟨p1, p2⟩ := paddingKept_raw hN hd e2 e4
  exact ⟨_, e1, p1, p2⟩

theorem horizontalNeon_raw {k : NeonH} {N : ℕ} (hN : 1 ≤ N ∧ N ≤ 4) (hk : k.pixels N ≠ none) {src dst : Image ℕ}
    {fw : FilterWeights ℤ} (hs : src.validate N = .ok ()) (hd : dst.validate N = .ok ())
    (hh : src.height = dst.height) (hsw : 0 < src.width) (hdw : 0 < dst.width)
    (hT : ValidTable fw src.width dst.width) :
    ∃ r, horizontalNeon k N src dst fw = some { dst with buffer := r } ∧
      r.length = dst.buffer.length ∧
      (∀ y x c, y < dst.height → x < dst.width → c < N → r[y * dst.strideOf N + x * N + c]? =
        some (k.row N (fw.kernel x) (fw.bound x) (fun i => src.buffer.getD (y * src.strideOf N + i) 0) c)) ∧
      (∀ y p, y < dst.height → dst.width * N ≤ p → p < dst.strideOf N →
        r[y * dst.strideOf N + p]? = dst.buffer[y * dst.strideOf N + p]?) := by
  obtain ⟨h, hh'⟩ := Option.ne_none_iff_exists'.1 hk
  unfold horizontalNeon
  rw [hh']
  exact horizontalSimd_raw (V := fun w b f c => k.row N w b f c) (NeonH.pixels_spec hN hh')
    (fun w b f g c _ _ hfg => NeonH.row_loc N k w b f g c hfg) hN.1 hs hd hh hsw hdw hT

theorem horizontalNeon_total {k : NeonH} {N : ℕ} (hN : 1 ≤ N ∧ N ≤ 4) {src dst : Image ℕ}
    {fw : FilterWeights ℤ} (hs : src.validate N = .ok ()) (hd : dst.validate N = .ok ())
    (hh : src.height = dst.height) (hsw : 0 < src.width) (hdw : 0 < dst.width)
    (hT : ValidTable fw src.width dst.width) :
    ∃ out, horizontalNeon k N src dst fw = some out ∧ SameShape out dst ∧ PaddingKept N dst out := by
  by_cases hk : k.pixels N = none
  · unfold horizontalNeon
    rw [hk]
    obtain ⟨r, e1, e2, _, e4⟩ := horizontalFixed_raw (hi := 255) hN hs hd hh hsw hdw hT
    obtain ⟨p1, p2⟩ := paddingKept_raw hN.1 hd e2 e4
    exact ⟨_, e1, p1, p2⟩
  · obtain ⟨r, e1, e2, _, e4⟩ := horizontalNeon_raw hN hk hs hd hh hsw hdw hT
    obtain ⟨p1, p2⟩ := paddingKept_raw hN.1 hd e2 e4
    exact ⟨_, e1, p1, p2⟩

/-- The handlers the dispatch can select. -/
def NeonH.fits (k : NeonH) (N : ℕ) : Prop := k = .scalar ∨ k.pixels N ≠ none

/-- The format with fixed handlers. -/
def formatNeonK (hk : NeonH) (vk : NeonV) (N : ℕ) : Format ℕ where
  default := 0
  shouldHaveBitDepth := false
  vertical := fun src dst fw => verticalNeon vk N src dst (numericalApproximation F32.rnd fw)
  horizontal := fun src dst fw => horizontalNeon hk N src dst (numericalApproximation F32.rnd fw)

theorem passAbs_neon {hk : NeonH} {vk : NeonV} {N : ℕ} (hN : 1 ≤ N ∧ N ≤ 4) (hf : hk.fits N) :
    PassAbs N (formatNeonK hk vk N) (· ≤ 255)
      (fun fw out => PlainShape fw out ∧ NoOverflow30 (numericalApproximation F32.rnd fw) out ∧
        (hk = .rdm → NoOverflow16 (numericalApproximation F32.rnd fw) out))
      (fun fw w y x c P => vk.value (numericalApproximation F32.rnd fw) (w * N) y (x * N + c) P)
      (fun fw x _ P => hk.value N (numericalApproximation F32.rnd fw) x P) := by
  constructor
  · intro src dst fw hs hd hw hdw hT hO hg
    exact verticalNeon_pass hN.1 hs hd hw hdw (hO.1.q_valid (ρ := F32.rnd) hT) hg
  · intro src dst fw hs hd hh hsw hdw hT hO hg
    have hT' := hO.1.q_valid (ρ := F32.rnd) hT
    have hW := q_i16 hO.1 hT
    rcases hf with rfl | hf
    · obtain ⟨out, o1, o2, o3, o4⟩ := C18_horizontal_pass (hi := 255) hN hs hd hh hsw hdw hT' hg hO.2.1.to31
      exact ⟨out, o1, o2, o3, fun y x c hy hx hc => by rw [o4 y x c hy hx hc]; rfl⟩
    · obtain ⟨r, e1, e2, e3, e4⟩ := horizontalNeon_raw hN hf hs hd hh hsw hdw hT'
      obtain ⟨p1, p2⟩ := paddingKept_raw hN.1 hd e2 e4
      refine ⟨_, e1, p1, p2, fun y x c hy hx hc => ?_⟩
      unfold sample
      rw [e3 y x c hy hx hc, NeonH.row_value hN hf hT' hx hc hW hO.2.1 hO.2.2]
      congr 2
      funext i
      rw [byte_mod hg, ← Nat.add_assoc]
      simp [pxD, sample, List.getD_eq_getElem?_getD, formatNeonK]
  · intro fw w y x c p; exact vk.value_le _ _ _ _ _
  · intro fw inn out x c p p' hT hO hx hc hp
    have hin := (hO.1.q_valid (ρ := F32.rnd) hT).inside x hx
    cases hk with
    | scalar =>
      show fixedRound _ _ _ _ = fixedRound _ _ _ _
      unfold fixedRound
      congr 2
      exact wsum_congr (fun _ _ => rfl) fun k hk => by dsimp only; rw [hp _ (by omega)]
    | full D =>
      show fixedRoundDown _ _ _ = fixedRoundDown _ _ _
      unfold fixedRoundDown
      congr 2
      refine wsum_congr (fun _ _ => rfl) fun k hk => by dsimp only; rw [hp _ (by split_ifs at hk <;> omega)]
    | rdm =>
      show fixedLow _ _ _ = fixedLow _ _ _
      unfold fixedLow
      congr 5
      refine sum_congr rfl fun k hk => ?_
      have hk : k < ((numericalApproximation F32.rnd fw).bound x).size := by simpa using hk
      dsimp only
      rw [hp _ (by omega)]

theorem convolve_neon {rdm : Bool} {s : Workload} {W N : ℕ} {table : ℕ → ℕ → Option (FilterWeights ℚ)}
    {store into : Image ℕ} :
    convolve W N (formatNeon rdm s N) table store into =
      convolve W N (formatNeonK (selectNeonH rdm s N store.width into.height into.width into.height)
        (selectNeonV rdm s store.height into.height) N) table store into := by
  unfold convolve
  by_cases h1 : store.width ≠ into.width ∧ store.height ≠ into.height
  · rw [if_pos h1, if_pos h1]
    show (tempImage W N 0 store.width into.height into.bitDepth).bind _ =
      (tempImage W N 0 store.width into.height into.bitDepth).bind _
    rcases e : tempImage W N 0 store.width into.height into.bitDepth with _ | tmp
    · rfl
    have ht : tmp.height = into.height := by
      by_cases hf : store.width * into.height * N < W
      · rw [tempImage_some hf] at e
        obtain rfl := Option.some.inj e
        rfl
      · unfold tempImage at e
        rw [if_pos (by omega)] at e
        exact absurd e (by simp)
    show (table store.height into.height).bind _ = (table store.height into.height).bind _
    congr 1
    funext vf
    show (verticalNeon (selectNeonV rdm s store.height tmp.height) N store tmp _).bind _ =
      (verticalNeon (selectNeonV rdm s store.height into.height) N store tmp _).bind _
    rw [ht]
    rfl
  · rw [if_neg h1, if_neg h1]
    by_cases h2 : store.height ≠ into.height
    · rw [if_pos h2, if_pos h2]
      rfl
    · rw [if_neg h2, if_neg h2]
      rw [not_not] at h2
      show (table store.width into.width).bind _ = (table store.width into.width).bind _
      congr 1
      funext hf
      show horizontalNeon (selectNeonH rdm s N store.width store.height into.width into.height) N store into _ =
        horizontalNeon (selectNeonH rdm s N store.width into.height into.width into.height) N store into _
      rw [h2]

/-- `generic_resize` with the handlers selected once from the image sizes. -/
theorem genericResize_neon {rdm : Bool} {s : Workload} {W N : ℕ} {L : Lib} {r : ResamplingFunction}
    {store into : Image ℕ} :
    genericResize W N (formatNeon rdm s N) L r store into =
      genericResize W N (formatNeonK (selectNeonH rdm s N store.width into.height into.width into.height)
        (selectNeonV rdm s store.height into.height) N) L r store into := by
  unfold genericResize
  rw [convolve_neon]
  rfl

theorem selectNeonH_fits (rdm : Bool) (s : Workload) {N : ℕ} (hN : 1 ≤ N ∧ N ≤ 4) (sw sh dw dh : ℕ) :
    (selectNeonH rdm s N sw sh dw dh).fits N := by
  obtain ⟨h1, h4⟩ := hN
  interval_cases N <;> unfold selectNeonH <;> cases s <;> simp only <;> (try split_ifs) <;>
    simp [NeonH.fits, NeonH.pixels]

/-- Every sample of an accepted NEON resize. -/
theorem neon_values {rdm : Bool} {s : Workload} {W N : ℕ} {L : Lib} {r : ResamplingFunction}
    {store into : Image ℕ} (h : AcceptedX86 W N L r store into)
    (h16 : selectNeonH rdm s N store.width into.height into.width into.height = .rdm →
      BothTables L r store into NoOverflow16) :
    ∃ qv qh out, IsTable L r store.height into.height qv ∧ IsTable L r store.width into.width qh ∧
      ValidTable qv store.height into.height ∧ ValidTable qh store.width into.width ∧
      I16Weights qv ∧ I16Weights qh ∧
      genericResize W N (formatNeon rdm s N) L r store into = some (.ok (), out) ∧
      SameShape out into ∧ PaddingKept N into out ∧
      ∀ y x c, y < into.height → x < into.width → c < N →
        sample out.buffer (into.strideOf N) N y x c = some
          (sepAbs store.width store.height into.width into.height
            (fun y x c => (selectNeonV rdm s store.height into.height).value qv (store.width * N) y (x * N + c))
            (fun x _ => (selectNeonH rdm s N store.width into.height into.width into.height).value N qh x) c
            (fun y x => pxD 0 store.buffer (store.strideOf N) N y x c) y x) := by
  rw [genericResize_neon]
  obtain ⟨c1, c2, c3, _⟩ := checkResize_ok.1 h.call.checked
  obtain ⟨vf, ev, Tv, Sv⟩ := table_exists L r (out := into.height) c3.2.1 h.call.small.2 (fun ha => (h.call.area ha).2)
  obtain ⟨hf', eh, Th, Sh⟩ := table_exists L r (out := into.width) c3.1 h.call.small.1 (fun ha => (h.call.area ha).1)
  obtain ⟨out, o1, o2, o3, o4⟩ := convolve_abs (W := W)
      (passAbs_neon (vk := selectNeonV rdm s store.height into.height) h.call.channels
        (selectNeonH_fits rdm s h.call.channels store.width into.height into.width into.height)) h.call.channels.1
      (table := tableOf L r) c2 c1 c3.1 c3.2.2.1 h.call.sizes h.call.fits ev eh Tv Th
      ⟨Sv, h.noOverflow.1 _ ⟨vf, ev, rfl⟩, fun hk => (h16 hk).1 _ ⟨vf, ev, rfl⟩⟩
      ⟨Sh, h.noOverflow.2 _ ⟨hf', eh, rfl⟩, fun hk => (h16 hk).2 _ ⟨hf', eh, rfl⟩⟩ h.bytes
  exact ⟨_, _, out, ⟨vf, ev, rfl⟩, ⟨hf', eh, rfl⟩, Sv.q_valid Tv, Sh.q_valid Th, q_i16 Sv Tv, q_i16 Sh Th,
    genericResize_conv h.call.checked h.call.filter h.call.sizes o1, o2, o3, o4⟩

end PicScale
