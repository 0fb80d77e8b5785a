import Verif.Lemmas.SimdPass

namespace PicScale

open Finset Spec

/-- Row value of the exact handlers. -/
def exactRow (N : ℕ) (w : List ℤ) (b : Bounds) (f : ℕ → ℕ) (c : ℕ) : ℕ :=
  packu (i32 (16384 + wsum b.size (fun k => i16 (w.getD k 0))
    (fun k => ((f ((b.start + k) * N + c) % 256 : ℕ) : ℤ))))

/-- Row value of the low precision handlers. -/
def lowRow (W : ℕ → ℕ → ℤ) (N : ℕ) (b : Bounds) (f : ℕ → ℕ) (c : ℕ) : ℕ :=
  clamp 255 (i16 (32 + ∑ k ∈ range b.size, lpTerm (f ((b.start + k) * N + c) % 256) (W k c)) >>> 6)

/-- Row value of `rgbAvx`. -/
def rgbAvxRow (w : List ℤ) (b : Bounds) (f : ℕ → ℕ) (c : ℕ) : ℕ :=
  packu (i32 (16384 + wsum b.size (fun k => i16 (w.getD k 0))
    (fun k => (((if 2 * ((b.size - 1) / 2) ≤ k ∧ c < 2 then f c else f ((b.start + k) * 3 + c)) % 256 : ℕ) : ℤ))))

theorem hVal_row (N : ℕ) (s : List ℕ) (o : ℕ) (w : List ℤ) (b : Bounds) (c : ℕ) :
    hVal N s o w b c = exactRow N w b (fun i => s.getD (o + i) 0) c := by
  unfold hVal hAcc exactRow pxb
  simp only [Nat.add_assoc]

theorem lbVal_row (W : ℕ → ℕ → ℤ) (N : ℕ) (s : List ℕ) (o : ℕ) (b : Bounds) (c : ℕ) :
    lbVal W N s o b c = lowRow W N b (fun i => s.getD (o + i) 0) c := by
  unfold lbVal lbAcc lowRow pxb
  simp only [Nat.add_assoc]

theorem rgbAvxVal_row (s : List ℕ) (o : ℕ) (w : List ℤ) (b : Bounds) (c : ℕ) :
    rgbAvxVal s o w b c = rgbAvxRow w b (fun i => s.getD (o + i) 0) c := by
  unfold rgbAvxVal rgbAvxAcc rgbAvxRow avxRgbByte pxb
  congr 3
  refine wsum_congr (fun _ _ => rfl) fun k _ => ?_
  simp only [Nat.add_assoc]
  split <;> rfl

theorem idx_lt {b : Bounds} {N k c : ℕ} (hk : k < b.size) (hc : c < N) :
    (b.start + k) * N + c < (b.start + b.size) * N := by
  have := Nat.mul_le_mul_right N (show b.start + k + 1 ≤ b.start + b.size by omega)
  rw [Nat.add_mul _ 1] at this
  omega

theorem exactRow_loc {N : ℕ} (w : List ℤ) (b : Bounds) (f g : ℕ → ℕ) (c : ℕ) (_hb : 1 ≤ b.size) (hc : c < N)
    (h : ∀ i, i < (b.start + b.size) * N → f i = g i) : exactRow N w b f c = exactRow N w b g c := by
  unfold exactRow
  congr 3
  refine wsum_congr (fun _ _ => rfl) fun k hk => ?_
  rw [h _ (idx_lt hk hc)]

theorem lowRow_loc {N : ℕ} (W : ℕ → ℕ → ℤ) (b : Bounds) (f g : ℕ → ℕ) (c : ℕ) (_hb : 1 ≤ b.size) (hc : c < N)
    (h : ∀ i, i < (b.start + b.size) * N → f i = g i) : lowRow W N b f c = lowRow W N b g c := by
  unfold lowRow
  congr 4
  refine sum_congr rfl fun k hk => ?_
  rw [h _ (idx_lt (by simpa using hk) hc)]

theorem rgbAvxRow_loc (w : List ℤ) (b : Bounds) (f g : ℕ → ℕ) (c : ℕ) (hb : 1 ≤ b.size) (hc : c < 3)
    (h : ∀ i, i < (b.start + b.size) * 3 → f i = g i) : rgbAvxRow w b f c = rgbAvxRow w b g c := by
  unfold rgbAvxRow
  congr 3
  refine wsum_congr (fun _ _ => rfl) fun k hk => ?_
  have h1 : (b.start + b.size) * 3 ≥ 3 := by omega
  rw [h _ (idx_lt hk hc), h c (by omega)]

/-- The value a vector handler writes, as a function of the row. -/
def HKernel.row (N : ℕ) (k : HKernel) (w : List ℤ) (b : Bounds) (f : ℕ → ℕ) (c : ℕ) : ℕ :=
  match k with
  | .rgbAvx => rgbAvxRow w b f c
  | .rgbaAvxLb => lowRow (wAvx w b) N b f c
  | .planeSseHrs | .cbcrSseHrs | .rgbaSseLb => lowRow (wAll w) N b f c
  | _ => exactRow N w b f c

/-- The channel counts a handler is used for. -/
def HKernel.fits (N : ℕ) : HKernel → Prop
  | .scalar => 1 ≤ N ∧ N ≤ 4
  | .planeSse => N = 1
  | .planeSseHrs => N = 1
  | .cbcrSseHrs => N = 2
  | .rgbSse => N = 3
  | .rgbAvx => N = 3
  | .rgbaSse => N = 4
  | .rgbaSseLb => N = 4
  | .rgbaAvxLb => N = 4

instance (N : ℕ) (k : HKernel) : Decidable (k.fits N) := by cases k <;> unfold HKernel.fits <;> infer_instance

theorem HKernel.row_loc {N : ℕ} {k : HKernel} (hf : k.fits N) (w : List ℤ) (b : Bounds) (f g : ℕ → ℕ) (c : ℕ)
    (hb : 1 ≤ b.size) (hc : c < N) (h : ∀ i, i < (b.start + b.size) * N → f i = g i) :
    k.row N w b f c = k.row N w b g c := by
  cases k
  case rgbAvx =>
    have hf : N = 3 := hf
    subst hf
    show rgbAvxRow w b f c = rgbAvxRow w b g c
    exact rgbAvxRow_loc w b f g c hb hc h
  case rgbaAvxLb =>
    show lowRow (wAvx w b) N b f c = lowRow (wAvx w b) N b g c
    exact lowRow_loc _ b f g c hb hc h
  case planeSseHrs =>
    show lowRow (wAll w) N b f c = lowRow (wAll w) N b g c
    exact lowRow_loc _ b f g c hb hc h
  case cbcrSseHrs =>
    show lowRow (wAll w) N b f c = lowRow (wAll w) N b g c
    exact lowRow_loc _ b f g c hb hc h
  case rgbaSseLb =>
    show lowRow (wAll w) N b f c = lowRow (wAll w) N b g c
    exact lowRow_loc _ b f g c hb hc h
  all_goals
    show exactRow N w b f c = exactRow N w b g c
    exact exactRow_loc w b f g c hb hc h

theorem map_map_congr {N : ℕ} {offs : List ℕ} {F G : ℕ → ℕ → ℕ} (h : ∀ o c, F o c = G o c) :
    some (offs.map fun o => (List.range N).map (F o)) = some (offs.map fun o => (List.range N).map (G o)) := by
  have : F = G := by funext o c; exact h o c
  rw [this]

theorem HKernel.pixels_spec {N : ℕ} {k : HKernel} (hf : k.fits N)
    {h : List ℕ → List ℕ → List ℤ → Bounds → Option (List (List ℕ))} (hk : k.pixels = some h)
    (s offs : List ℕ) (w : List ℤ) (b : Bounds) (hp : HPre N s offs w b) :
    h s offs w b = some (offs.map fun o => (List.range N).map fun c => k.row N w b (fun i => s.getD (o + i) 0) c) := by
  cases k
  case scalar => exact absurd hk (by simp [HKernel.pixels])
  case planeSse =>
    have hf : N = 1 := hf
    subst hf
    obtain rfl : PicScale.planeSse = h := Option.some.inj hk
    exact (planeSse_spec hp).trans (map_map_congr fun o c => hVal_row 1 s o w b c)
  case planeSseHrs =>
    have hf : N = 1 := hf
    subst hf
    obtain rfl : PicScale.planeSseHrs = h := Option.some.inj hk
    exact (planeSseHrs_spec hp).trans (map_map_congr fun o c => lbVal_row (wAll w) 1 s o b c)
  case cbcrSseHrs =>
    have hf : N = 2 := hf
    subst hf
    obtain rfl : PicScale.cbcrSseHrs = h := Option.some.inj hk
    exact (cbcrSseHrs_spec hp).trans (map_map_congr fun o c => lbVal_row (wAll w) 2 s o b c)
  case rgbSse =>
    have hf : N = 3 := hf
    subst hf
    obtain rfl : PicScale.rgbSse = h := Option.some.inj hk
    exact (rgbSse_spec hp).trans (map_map_congr fun o c => hVal_row 3 s o w b c)
  case rgbAvx =>
    have hf : N = 3 := hf
    subst hf
    obtain rfl : PicScale.rgbAvx = h := Option.some.inj hk
    exact (rgbAvx_spec hp).trans (map_map_congr fun o c => rgbAvxVal_row s o w b c)
  case rgbaSse =>
    have hf : N = 4 := hf
    subst hf
    obtain rfl : PicScale.rgbaSse = h := Option.some.inj hk
    exact (rgbaSse_spec hp).trans (map_map_congr fun o c => hVal_row 4 s o w b c)
  case rgbaSseLb =>
    have hf : N = 4 := hf
    subst hf
    obtain rfl : PicScale.rgbaSseLb = h := Option.some.inj hk
    exact (rgbaSseLb_spec hp).trans (map_map_congr fun o c => lbVal_row (wAll w) 4 s o b c)
  case rgbaAvxLb =>
    have hf : N = 4 := hf
    subst hf
    obtain rfl : PicScale.rgbaAvxLb = h := Option.some.inj hk
    exact (rgbaAvxLb_spec hp).trans (map_map_congr fun o c => lbVal_row (wAvx w b) 4 s o b c)

/-- Every vector horizontal pass. -/
theorem horizontalX86_raw {cpu : Cpu} {k : HKernel} (hr : cpu.runsH k = true) {N : ℕ} (hf : k.fits N)
    (hns : k ≠ .scalar) {src dst : Image ℕ} {fw : FilterWeights ℤ}
    (hs : src.validate N = .ok ()) (hd : dst.validate N = .ok ())
    (hh : src.height = dst.height) (hsw : 0 < src.width) (hdw : 0 < dst.width)
    (hT : ValidTable fw src.width dst.width) :
    ∃ r, horizontalX86 cpu k N src dst fw = some { dst with buffer := r } ∧
      r.length = dst.buffer.length ∧
      (∀ y x c, y < dst.height → x < dst.width → c < N → r[y * dst.strideOf N + x * N + c]? =
        some (k.row N (fw.kernel x) (fw.bound x) (fun i => src.buffer.getD (y * src.strideOf N + i) 0) c)) ∧
      (∀ y p, y < dst.height → dst.width * N ≤ p → p < dst.strideOf N →
        r[y * dst.strideOf N + p]? = dst.buffer[y * dst.strideOf N + p]?) := by
  obtain ⟨h, hk⟩ : ∃ h, k.pixels = some h := by
    cases k <;> simp_all [HKernel.pixels]
  have hN : 1 ≤ N := by cases k <;> simp only [HKernel.fits] at hf <;> omega
  obtain ⟨r, e⟩ := horizontalSimd_raw (h := h) (V := k.row N) (fun s offs w b hp => HKernel.pixels_spec hf hk s offs w b hp)
    (fun w b f g c => HKernel.row_loc hf w b f g c) hN hs hd hh hsw hdw hT
  refine ⟨r, ?_, e.2⟩
  unfold horizontalX86
  rw [if_pos hr, hk]
  exact e.1

/-! ### From machine arithmetic to the specification -/

theorem I16Weights.range {fw : FilterWeights ℤ} (h : I16Weights fw) (i : ℕ) :
    -32768 ≤ fw.weights.getD i 0 ∧ fw.weights.getD i 0 ≤ 32767 := by
  by_cases hi : i < fw.weights.length
  · rw [List.getD_eq_getElem?_getD, List.getElem?_eq_getElem hi]
    exact h _ (List.getElem_mem hi)
  · rw [List.getD_eq_getElem?_getD, List.getElem?_eq_none (by omega)]
    norm_num

theorem I16Weights.weight {fw : FilterWeights ℤ} (h : I16Weights fw) (i k : ℕ) :
    -32768 ≤ fw.weight i k ∧ fw.weight i k ≤ 32767 := h.range _

theorem NoOverflow16.to30 {fw : FilterWeights ℤ} {out : ℕ} (h : NoOverflow16 fw out) : NoOverflow30 fw out := by
  intro i hi
  have := h i hi
  rw [sum_add_distrib] at this
  simp only [sum_const, card_range, nsmul_eq_mul, mul_one] at this
  omega

theorem NoOverflow30.to31 {fw : FilterWeights ℤ} {out : ℕ} (h : NoOverflow30 fw out) : NoOverflow fw out 255 := by
  intro i hi
  have := h i hi
  push_cast
  omega

/-- The exact accumulator does not wrap. -/
theorem acc_exact {n : ℕ} {w : ℕ → ℤ} {p : ℕ → ℕ} (hb : (∑ k ∈ range n, |w k|) * 255 + 2 ^ 14 < 2 ^ 30)
    (hp : ∀ k, k < n → p k ≤ 255) :
    i32 (16384 + wsum n w fun k => (p k : ℤ)) = 16384 + wsum n w (fun k => (p k : ℤ)) ∧
      16384 + wsum n w (fun k => (p k : ℤ)) < 2 ^ 30 := by
  have hb' := wsum_abs_le (n := n) (w := w) (p := fun k => (p k : ℤ)) (M := 255)
    (fun k hk => by have := hp k hk; omega)
  rw [abs_le] at hb'
  push_cast at hb'
  exact ⟨i32_eq_self (by omega) (by omega), by omega⟩

theorem packu_exact {n : ℕ} {w : ℕ → ℤ} {p : ℕ → ℕ} (hb : (∑ k ∈ range n, |w k|) * 255 + 2 ^ 14 < 2 ^ 30)
    (hp : ∀ k, k < n → p k ≤ 255) :
    packu (i32 (16384 + wsum n w fun k => (p k : ℤ))) = fixedRound 255 n w p := by
  obtain ⟨h1, h2⟩ := acc_exact hb hp
  rw [h1, packu_eq h2, saturateNarrow_round]
  rfl

theorem saturate_exact {n : ℕ} {w : ℕ → ℤ} {p : ℕ → ℕ} (hb : (∑ k ∈ range n, |w k|) * 255 + 2 ^ 14 < 2 ^ 30)
    (hp : ∀ k, k < n → p k ≤ 255) :
    saturateNarrow 255 (i32 (16384 + wsum n w fun k => (p k : ℤ))) = fixedRound 255 n w p := by
  obtain ⟨h1, h2⟩ := acc_exact hb hp
  rw [h1, saturateNarrow_round]
  rfl

theorem shift_floor (v : ℤ) (n : ℕ) : v >>> n = ⌊((v : ℚ) / (2 ^ n : ℕ))⌋ := by
  rw [Int.shiftRight_eq_div_pow]
  exact (Rat.floor_intCast_div_natCast v (2 ^ n)).symm

/-- One low precision tap. -/
theorem lpTerm_spec {p : ℕ} {w : ℤ} (hp : p ≤ 255) (hw : -32768 ≤ w ∧ w ≤ 32767) :
    lpTerm p w = lowTerm p w ∧ |2 * lowTerm p w| ≤ |w| + 1 := by
  have hq : 257 * p / 4 ≤ 16383 := by omega
  obtain ⟨q, hqe⟩ : ∃ q : ℕ, 257 * p / 4 = q := ⟨_, rfl⟩
  rw [hqe] at hq
  have e : lowTerm p w = ((q : ℤ) * w + 16384) >>> 15 := by
    unfold lowTerm
    rw [shift_floor, hqe]
    congr 1
    push_cast
    ring
  have hb : ((q : ℤ) * w + 16384) >>> 15 * 32768 ≤ (q : ℤ) * w + 16384 ∧
      (q : ℤ) * w + 16384 < ((q : ℤ) * w + 16384) >>> 15 * 32768 + 32768 := by
    rw [Int.shiftRight_eq_div_pow]
    norm_num
    omega
  have h1 : |(q : ℤ) * w| ≤ 16383 * |w| := by
    rw [abs_mul, abs_of_nonneg (by positivity : (0 : ℤ) ≤ (q : ℤ))]
    exact mul_le_mul_of_nonneg_right (by exact_mod_cast hq) (abs_nonneg _)
  have hwa : |w| ≤ 32768 := by rw [abs_le]; omega
  obtain ⟨t, ht⟩ : ∃ t, (q : ℤ) * w = t := ⟨_, rfl⟩
  rw [ht] at h1 hb e
  rw [abs_le] at h1
  constructor
  · unfold lpTerm mulhrs1
    rw [hqe, ht, i16_eq_self (by omega) (by omega), e]
  · rw [e, abs_le]
    obtain ⟨a, ha⟩ : ∃ a, |w| = a := ⟨_, rfl⟩
    rw [ha] at h1 hwa ⊢
    have := abs_nonneg w
    constructor <;> omega

theorem low_exact {n : ℕ} {w : ℕ → ℤ} {p : ℕ → ℕ} (hw : ∀ k, k < n → -32768 ≤ w k ∧ w k ≤ 32767)
    (hb : ∑ k ∈ range n, (|w k| + 1) < 65472) (hp : ∀ k, k < n → p k ≤ 255) :
    clamp 255 (i16 (32 + ∑ k ∈ range n, lpTerm (p k) (w k)) >>> 6) = fixedLow n w p := by
  have e : ∑ k ∈ range n, lpTerm (p k) (w k) = ∑ k ∈ range n, lowTerm (p k) (w k) :=
    sum_congr rfl fun k hk => (lpTerm_spec (hp k (by simpa using hk)) (hw k (by simpa using hk))).1
  have h2 : |2 * ∑ k ∈ range n, lowTerm (p k) (w k)| ≤ ∑ k ∈ range n, (|w k| + 1) := by
    rw [mul_sum]
    refine le_trans (abs_sum_le_sum_abs _ _) (sum_le_sum fun k hk => ?_)
    exact (lpTerm_spec (hp k (by simpa using hk)) (hw k (by simpa using hk))).2
  rw [e]
  unfold fixedLow
  obtain ⟨T, hT⟩ : ∃ T, ∑ k ∈ range n, lowTerm (p k) (w k) = T := ⟨_, rfl⟩
  rw [hT] at h2 ⊢
  rw [abs_le] at h2
  rw [i16_eq_self (by omega) (by omega), shift_floor]
  congr 2
  push_cast
  ring

end PicScale
