import Verif.Lemmas.SimdValues
import Verif.Lemmas.ResizeGeneral

/-! The x86 passes as formats with fixed handlers, and what `generic_resize` does with them. -/

namespace PicScale

open Finset Spec

theorem paddingKept_raw {N : ℕ} {dst : Image ℕ} {r : List ℕ} (hN : 1 ≤ N) (hd : dst.validate N = .ok ())
    (h2 : r.length = dst.buffer.length)
    (h4 : ∀ y p, y < dst.height → dst.width * N ≤ p → p < dst.strideOf N →
        r[y * dst.strideOf N + p]? = dst.buffer[y * dst.strideOf N + p]?) :
    SameShape { dst with buffer := r } dst ∧ PaddingKept N dst { dst with buffer := r } :=
  ⟨⟨rfl, rfl, rfl, rfl, rfl, h2⟩, paddingKept_of hN hd h2 h4⟩

/-- The format with fixed handlers. -/
def formatKernels (cpu : Cpu) (hk : HKernel) (vk : VKernel) (N : ℕ) : Format ℕ where
  default := 0
  shouldHaveBitDepth := false
  vertical := fun src dst fw => verticalX86 cpu vk N src dst (numericalApproximation F32.rnd fw)
  horizontal := fun src dst fw => horizontalX86 cpu hk N src dst (numericalApproximation F32.rnd fw)

theorem convolve_x86 {cpu : Cpu} {s : Workload} {W N : ℕ} {table : ℕ → ℕ → Option (FilterWeights ℚ)}
    {store into : Image ℕ} :
    convolve W N (formatX86 cpu s N) table store into =
      convolve W N (formatKernels cpu (selectH cpu s N store.width into.height into.width into.height)
        (selectV cpu s store.height into.height) N) table store into := by
  unfold convolve
  by_cases h1 : store.width ≠ into.width ∧ store.height ≠ into.height
  · rw [if_pos h1, if_pos h1]
    show (tempImage W N 0 store.width into.height into.bitDepth).bind _ =
      (tempImage W N 0 store.width into.height into.bitDepth).bind _
    rcases e : tempImage W N 0 store.width into.height into.bitDepth with _ | tmp
    · rfl
    have ht : tmp.height = into.height := by
      by_cases hf : store.width * into.height * N < W
      · rw [tempImage_some hf] at e
        obtain rfl := Option.some.inj e
        rfl
      · unfold tempImage at e
        rw [if_pos (by omega)] at e
        exact absurd e (by simp)
    show (table store.height into.height).bind _ = (table store.height into.height).bind _
    congr 1
    funext vf
    show (verticalX86 cpu (selectV cpu s store.height tmp.height) N store tmp _).bind _ =
      (verticalX86 cpu (selectV cpu s store.height into.height) N store tmp _).bind _
    rw [ht]
    rfl
  · rw [if_neg h1, if_neg h1]
    by_cases h2 : store.height ≠ into.height
    · rw [if_pos h2, if_pos h2]
      rfl
    · rw [if_neg h2, if_neg h2]
      rw [not_not] at h2
      show (table store.width into.width).bind _ = (table store.width into.width).bind _
      congr 1
      funext hf
      show horizontalX86 cpu (selectH cpu s N store.width store.height into.width into.height) N store into _ =
        horizontalX86 cpu (selectH cpu s N store.width into.height into.width into.height) N store into _
      rw [h2]

/-- `generic_resize` with the handlers selected once from the image sizes. -/
theorem genericResize_x86 {cpu : Cpu} {s : Workload} {W N : ℕ} {L : Lib} {r : ResamplingFunction}
    {store into : Image ℕ} :
    genericResize W N (formatX86 cpu s N) L r store into =
      genericResize W N (formatKernels cpu (selectH cpu s N store.width into.height into.width into.height)
        (selectV cpu s store.height into.height) N) L r store into := by
  unfold genericResize
  rw [convolve_x86]
  rfl

theorem below8_self {n : ℕ} (hn : 1 ≤ n) : below8 n n = true := by
  unfold below8
  rw [decide_eq_true_iff]
  have h : F32.ofNat n ≠ 0 := by
    intro h
    have h1 : F32.rnd 1 ≤ F32.rnd (n : ℚ) := F32.rnd_mono (by exact_mod_cast hn)
    unfold F32.ofNat at h
    rw [h, show F32.rnd 1 = 1 by decide +kernel] at h1
    norm_num at h1
  rw [F32.div_eq h, div_self h, show F32.rnd 1 = 1 by decide +kernel]
  norm_num

/-! ### The two passes -/

theorem kernel_getD_lt {fw : FilterWeights ℤ} {inn out : ℕ} (hT : ValidTable fw inn out) {x k : ℕ} (hx : x < out)
    (hk : k < (fw.bound x).size) : (fw.kernel x).getD k 0 = fw.weight x k :=
  FilterWeights.kernel_getD fw x k 0 (by have := hT.size_le x hx; omega)

theorem drop_getD_weight (fw : FilterWeights ℤ) (y k : ℕ) :
    (fw.weights.drop (y * fw.alignedSize)).getD k 0 = fw.weight y k := by
  simp [FilterWeights.weight, List.getD_eq_getElem?_getD, List.getElem?_drop]

theorem byte_mod {src : Image ℕ} (hM : ∀ v ∈ src.buffer, v ≤ 255) (i : ℕ) :
    src.buffer.getD i 0 % 256 = src.buffer.getD i 0 := by
  have := getD_le_of_forall hM i
  omega

/-- The exact horizontal handlers. -/
def HKernel.exact : HKernel → Prop
  | .planeSse => True
  | .rgbSse => True
  | .rgbaSse => True
  | _ => False
/-- The low precision horizontal handlers with the right weights everywhere. -/
def HKernel.low : HKernel → Prop
  | .planeSseHrs => True
  | .cbcrSseHrs => True
  | .rgbaSseLb => True
  | _ => False

theorem HKernel.row_exact {k : HKernel} (h : k.exact) (N : ℕ) : k.row N = exactRow N := by
  cases k <;> first | rfl | exact absurd h (by simp [HKernel.exact])

theorem HKernel.row_low {k : HKernel} (h : k.low) (N : ℕ) (w : List ℤ) (b : Bounds) :
    k.row N w b = lowRow (wAll w) N b := by
  cases k <;> first | rfl | exact absurd h (by simp [HKernel.low])

theorem exactRow_spec {N : ℕ} {src : Image ℕ} {fw : FilterWeights ℤ} {inn out x y c : ℕ}
    (hT : ValidTable fw inn out) (hx : x < out) (hW : I16Weights fw) (hO : NoOverflow30 fw out)
    (hM : ∀ v ∈ src.buffer, v ≤ 255) :
    exactRow N (fw.kernel x) (fw.bound x) (fun i => src.buffer.getD (y * src.strideOf N + i) 0) c =
      fixedRound 255 (fw.bound x).size (fun k => fw.weight x k)
        (fun k => pxD 0 src.buffer (src.strideOf N) N y ((fw.bound x).start + k) c) := by
  unfold exactRow
  have e : wsum (fw.bound x).size (fun k => i16 ((fw.kernel x).getD k 0))
      (fun k => ((src.buffer.getD (y * src.strideOf N + (((fw.bound x).start + k) * N + c)) 0 % 256 : ℕ) : ℤ)) =
      wsum (fw.bound x).size (fun k => fw.weight x k)
        (fun k => ((pxD 0 src.buffer (src.strideOf N) N y ((fw.bound x).start + k) c : ℕ) : ℤ)) := by
    refine wsum_congr (fun k hk => ?_) fun k hk => ?_
    · rw [kernel_getD_lt hT hx hk]
      have := hW.weight x k
      exact i16_eq_self (by omega) (by omega)
    · rw [byte_mod hM, ← Nat.add_assoc]
      simp [pxD, sample, List.getD_eq_getElem?_getD]
  rw [e]
  refine packu_exact (hO x hx) fun k hk => ?_
  have := getD_le_of_forall hM (y * src.strideOf N + ((fw.bound x).start + k) * N + c)
  simpa [pxD, sample, List.getD_eq_getElem?_getD] using this

theorem lowRow_spec {N : ℕ} {src : Image ℕ} {fw : FilterWeights ℤ} {inn out x y c : ℕ} {Wt : ℕ → ℕ → ℤ}
    (hwt : ∀ k, k < (fw.bound x).size → Wt k c = i16 ((fw.kernel x).getD k 0))
    (hT : ValidTable fw inn out) (hx : x < out) (hW : I16Weights fw) (hO : NoOverflow16 fw out)
    (hM : ∀ v ∈ src.buffer, v ≤ 255) :
    lowRow Wt N (fw.bound x) (fun i => src.buffer.getD (y * src.strideOf N + i) 0) c =
      fixedLow (fw.bound x).size (fun k => fw.weight x k)
        (fun k => pxD 0 src.buffer (src.strideOf N) N y ((fw.bound x).start + k) c) := by
  unfold lowRow
  have e : ∑ k ∈ range (fw.bound x).size, lpTerm
      (src.buffer.getD (y * src.strideOf N + (((fw.bound x).start + k) * N + c)) 0 % 256) (Wt k c) =
      ∑ k ∈ range (fw.bound x).size, lpTerm
        (pxD 0 src.buffer (src.strideOf N) N y ((fw.bound x).start + k) c) (fw.weight x k) := by
    refine sum_congr rfl fun k hk => ?_
    have hk : k < (fw.bound x).size := by simpa using hk
    rw [hwt k hk, kernel_getD_lt hT hx hk, byte_mod hM, ← Nat.add_assoc]
    have := hW.weight x k
    rw [i16_eq_self (by omega) (by omega)]
    simp [pxD, sample, List.getD_eq_getElem?_getD]
  rw [e]
  refine low_exact (fun k _ => hW.weight x k) (hO x hx) fun k hk => ?_
  have := getD_le_of_forall hM (y * src.strideOf N + ((fw.bound x).start + k) * N + c)
  simpa [pxD, sample, List.getD_eq_getElem?_getD] using this

/-- Vertical accumulator of an exact handler. -/
theorem accAt_eq {N : ℕ} {src : Image ℕ} {fw : FilterWeights ℤ} {y x c : ℕ} (hW : I16Weights fw)
    (hM : ∀ v ∈ src.buffer, v ≤ 255) :
    accAt src.buffer (src.strideOf N) (fw.weights.drop (y * fw.alignedSize)) (fw.bound y) (x * N + c) =
      i32 (16384 + wsum (fw.bound y).size (fun k => fw.weight y k)
        (fun k => ((pxD 0 src.buffer (src.strideOf N) N ((fw.bound y).start + k) x c : ℕ) : ℤ))) := by
  unfold accAt accV
  congr 2
  refine wsum_congr (fun k hk => ?_) fun k hk => ?_
  · rw [drop_getD_weight]
    have := hW.weight y k
    exact i16_eq_self (by omega) (by omega)
  · rw [byte_mod hM, Nat.mul_comm, Nat.add_zero, ← Nat.add_assoc]
    simp [pxD, sample, List.getD_eq_getElem?_getD]

theorem lpAt_eq {N : ℕ} {src : Image ℕ} {fw : FilterWeights ℤ} {out y x c : ℕ} (hy : y < out) (hW : I16Weights fw)
    (hO : NoOverflow16 fw out) (hM : ∀ v ∈ src.buffer, v ≤ 255) :
    lpAt src.buffer (src.strideOf N) (fw.weights.drop (y * fw.alignedSize)) (fw.bound y) (x * N + c) =
      fixedLow (fw.bound y).size (fun k => fw.weight y k)
        (fun k => pxD 0 src.buffer (src.strideOf N) N ((fw.bound y).start + k) x c) := by
  unfold lpAt lpAcc
  have e : ∑ k ∈ range (fw.bound y).size, lpTerm
      (src.buffer.getD (src.strideOf N * ((fw.bound y).start + k) + 0 + (x * N + c)) 0 % 256)
        (i16 ((fw.weights.drop (y * fw.alignedSize)).getD k 0)) =
      ∑ k ∈ range (fw.bound y).size, lpTerm
        (pxD 0 src.buffer (src.strideOf N) N ((fw.bound y).start + k) x c) (fw.weight y k) := by
    refine sum_congr rfl fun k hk => ?_
    rw [drop_getD_weight, byte_mod hM, Nat.mul_comm, Nat.add_zero, ← Nat.add_assoc]
    have := hW.weight y k
    rw [i16_eq_self (by omega) (by omega)]
    simp [pxD, sample, List.getD_eq_getElem?_getD]
  rw [e]
  refine low_exact (fun k _ => hW.weight y k) (hO y hy) fun k hk => ?_
  have := getD_le_of_forall hM (((fw.bound y).start + k) * src.strideOf N + x * N + c)
  simpa [pxD, sample, List.getD_eq_getElem?_getD] using this

theorem pxD_le255 {src : Image ℕ} (hM : ∀ v ∈ src.buffer, v ≤ 255) (s N y x c : ℕ) :
    pxD 0 src.buffer s N y x c ≤ 255 := by
  have := getD_le_of_forall hM (y * s + x * N + c)
  simpa [pxD, sample, List.getD_eq_getElem?_getD] using this

theorem verticalAvx_pass {cpu : Cpu} (hk : cpu.runsV .avx = true) {N : ℕ} {src dst : Image ℕ}
    {fw : FilterWeights ℤ} (hN : 1 ≤ N) (hs : src.validate N = .ok ()) (hd : dst.validate N = .ok ())
    (hw : src.width = dst.width) (hdw : 0 < dst.width) (hT : ValidTable fw src.height dst.height)
    (hW : I16Weights fw) (hO : NoOverflow30 fw dst.height) (hM : ∀ v ∈ src.buffer, v ≤ 255) :
    ∃ out, verticalX86 cpu .avx N src dst fw = some out ∧ SameShape out dst ∧ PaddingKept N dst out ∧
      ∀ y x c, y < dst.height → x < dst.width → c < N →
        sample out.buffer (dst.strideOf N) N y x c = some (fixedRound 255 (fw.bound y).size
          (fun k => fw.weight y k)
          (fun k => pxD 0 src.buffer (src.strideOf N) N ((fw.bound y).start + k) x c)) := by
  obtain ⟨r, e1, e2, e3, e4⟩ := verticalX86_raw (k := .avx) hk (N := N) (src := src) (dst := dst) (fw := fw)
    (V := fun y p => saturateNarrow 255 (accAt src.buffer (src.strideOf N)
      (fw.weights.drop (y * fw.alignedSize)) (fw.bound y) p))
    (fun y d hy hdl hp => by
      obtain ⟨r, h1, h2, h3, h4⟩ := avxColumn_spec hp
      refine ⟨r, h1, h2, fun p hpl => ?_⟩
      rcases Nat.lt_or_ge p (32 * ((d.length - 1) / 32)) with h | h
      · exact h3 p h hpl
      · rw [h4 p h hpl]
        have hp0 : p / N * N + p % N = p := Nat.div_add_mod' p N
        rw [← hp0, accAt_eq hW hM]
        obtain ⟨a1, a2⟩ := acc_exact (hO y hy) (p := fun k => pxD 0 src.buffer (src.strideOf N) N
          ((fw.bound y).start + k) (p / N) (p % N)) fun k _ => pxD_le255 hM _ _ _ _ _
        rw [a1, packu_eq a2])
    hN hs hd hw hdw hT
  obtain ⟨p1, p2⟩ := paddingKept_raw hN hd e2 e4
  refine ⟨_, e1, p1, p2, fun y x c hy hx hc => ?_⟩
  unfold sample
  rw [e3 y x c hy hx hc, accAt_eq hW hM, saturate_exact (hO y hy) fun k _ => pxD_le255 hM _ _ _ _ _]

theorem verticalLow_pass {cpu : Cpu} {k : VKernel} (hl : k = .sseLp ∨ k = .avxLp) (hk : cpu.runsV k = true) {N : ℕ}
    {src dst : Image ℕ}
    {fw : FilterWeights ℤ} (hN : 1 ≤ N) (hs : src.validate N = .ok ()) (hd : dst.validate N = .ok ())
    (hw : src.width = dst.width) (hdw : 0 < dst.width) (hT : ValidTable fw src.height dst.height)
    (hW : I16Weights fw) (hO : NoOverflow16 fw dst.height) (hM : ∀ v ∈ src.buffer, v ≤ 255) :
    ∃ out, verticalX86 cpu k N src dst fw = some out ∧ SameShape out dst ∧ PaddingKept N dst out ∧
      ∀ y x c, y < dst.height → x < dst.width → c < N →
        sample out.buffer (dst.strideOf N) N y x c = some (fixedLow (fw.bound y).size
          (fun k => fw.weight y k)
          (fun k => pxD 0 src.buffer (src.strideOf N) N ((fw.bound y).start + k) x c)) := by
  obtain ⟨r, e1, e2, e3, e4⟩ := verticalX86_raw (k := k) hk (N := N) (src := src) (dst := dst) (fw := fw)
    (V := fun y p => lpAt src.buffer (src.strideOf N) (fw.weights.drop (y * fw.alignedSize)) (fw.bound y) p)
    (fun y d hy hdl hp => by
      have e : k.column (fw.bound y) src.buffer d (src.strideOf N) (fw.weights.drop (y * fw.alignedSize)) =
          some ((List.range d.length).map (lpAt src.buffer (src.strideOf N)
            (fw.weights.drop (y * fw.alignedSize)) (fw.bound y))) := by
        rcases hl with rfl | rfl
        · exact sseColumnLp_spec hp
        · exact avxColumnLp_spec hp
      refine ⟨_, e, by simp, fun p hpl => by simp [hpl]⟩)
    hN hs hd hw hdw hT
  obtain ⟨p1, p2⟩ := paddingKept_raw hN hd e2 e4
  refine ⟨_, e1, p1, p2, fun y x c hy hx hc => ?_⟩
  unfold sample
  rw [e3 y x c hy hx hc, lpAt_eq hy hW hO hM]

end PicScale
