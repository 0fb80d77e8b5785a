import Verif.Lemmas.Avx512
import Verif.Lemmas.X86F32Value
import Verif.SpecAvx512

/-! Whole resizes with the AVX-512 and VNNI handlers. -/

namespace PicScale

open Finset Spec

variable {S : Type}

/-! ### Two formats with the same passes -/

/-- Two formats whose passes agree on valid images and tables give the same resize. -/
theorem convolve_congr {W N : ℕ} {F G : Format S} {okT : FilterWeights ℚ → ℕ → Prop}
    (hdef : F.default = G.default)
    (hvert : ∀ (src dst : Image S) (fw : FilterWeights ℚ), src.validate N = .ok () →
      dst.validate N = .ok () → src.width = dst.width → 0 < dst.width →
      ValidTable fw src.height dst.height → okT fw dst.height →
      ∃ out, F.vertical src dst fw = some out ∧ G.vertical src dst fw = some out ∧ SameShape out dst)
    {table : ℕ → ℕ → Option (FilterWeights ℚ)} {store into : Image S} {vf hf : FilterWeights ℚ}
    (hhor : store.width ≠ into.width → ∀ (src dst : Image S) (fw : FilterWeights ℚ), src.validate N = .ok () →
      dst.validate N = .ok () → src.height = dst.height → 0 < src.width → 0 < dst.width →
      ValidTable fw src.width dst.width → okT fw dst.width →
      F.horizontal src dst fw = G.horizontal src dst fw)
    (hs : store.validate N = .ok ()) (hd : into.validate N = .ok ()) (hsw : 0 < store.width)
    (hdw : 0 < into.width)
    (hne : store.width ≠ into.width ∨ store.height ≠ into.height)
    (hfit : store.width * into.height * N < W)
    (ev : table store.height into.height = some vf) (eh : table store.width into.width = some hf)
    (Tv : ValidTable vf store.height into.height) (Th : ValidTable hf store.width into.width)
    (Ov : okT vf into.height) (Oh : okT hf into.width) :
    convolve W N F table store into = convolve W N G table store into := by
  unfold convolve
  by_cases h1 : store.width = into.width
  · have h2 : store.height ≠ into.height := by tauto
    rw [if_neg (show ¬ (store.width ≠ into.width ∧ store.height ≠ into.height) by tauto),
      if_neg (show ¬ (store.width ≠ into.width ∧ store.height ≠ into.height) by tauto), if_pos h2, if_pos h2, ev]
    obtain ⟨out, o1, o2, _⟩ := hvert store into vf hs hd h1 hdw Tv Ov
    exact o1.trans o2.symm
  by_cases h2 : store.height = into.height
  · rw [if_neg (by tauto), if_neg (by tauto), if_neg (by tauto), if_neg (by tauto), eh]
    exact hhor h1 store into hf hs hd h2 hsw hdw Th Oh
  · rw [if_pos ⟨h1, h2⟩, if_pos ⟨h1, h2⟩, tempImage_some hfit, tempImage_some hfit, ev, eh, ← hdef]
    simp only [Option.bind_eq_bind, Option.bind_some]
    obtain ⟨t, t1, t2, t3⟩ := hvert store
      { buffer := List.replicate (store.width * into.height * N) F.default, channels := N,
        width := store.width, height := into.height, stride := store.width * N, bitDepth := into.bitDepth }
      vf hs (packed_validate (by rw [List.length_replicate])) rfl hsw Tv Ov
    obtain ⟨_, _, _, _, _, tl⟩ := t3
    simp only [List.length_replicate] at tl
    rw [t1, t2]
    simp only [Option.bind_some]
    exact hhor h1 (Image.mk t.buffer N store.width into.height (store.width * N) into.bitDepth) into hf
      (packed_validate tl) hd rfl hsw hdw Th Oh

/-! ### The vertical pass -/

/-- The features a CPU reports together. -/
structure Cpu512.Real (cpu : Cpu512) : Prop where
  avx512 : cpu.avx512 = true → cpu.base.avx2 = true
  vnni : cpu.vnni = true → cpu.base.avx2 = true

theorem vertical512_eq {cpu : Cpu512} (hr : cpu.Real) {s : Workload} {N : ℕ} {src dst : Image ℕ}
    {fw : FilterWeights ℤ} (hN : 1 ≤ N) (hs : src.validate N = .ok ()) (hd : dst.validate N = .ok ())
    (hw : src.width = dst.width) (hdw : 0 < dst.width) (hT : ValidTable fw src.height dst.height) :
    vertical512 cpu s N src dst fw =
      verticalX86 cpu.base (selectV cpu.base s src.height dst.height) N src dst fw := by
  unfold vertical512
  by_cases hu : uses512V cpu s src.height dst.height = true
  · rw [if_pos hu]
    unfold uses512V at hu
    simp only [Bool.and_eq_true, decide_eq_true_eq] at hu
    obtain ⟨⟨u1, u2⟩, u3⟩ := hu
    have h2 := hr.avx512 u1
    have hk : selectV cpu.base s src.height dst.height = .avxLp := by
      unfold selectV
      rw [if_pos h2, if_pos ⟨u2, u3⟩]
    rw [hk]
    have hrun : cpu.base.runsV .avxLp = true := by
      rw [← hk]; exact selectV_runs _ _ _ _
    let V := fun y p => lpAt src.buffer (src.strideOf N) (fw.weights.drop (y * fw.alignedSize)) (fw.bound y) p
    obtain ⟨r, e1, e2, e3, e4⟩ := verticalG_raw (N := N) (src := src) (dst := dst) (fw := fw)
      (column := fun b sr d ss w => avx512ColumnLp b sr d ss w) (V := V)
      (fun y d hy hdl hp => ⟨_, avx512ColumnLp_spec hp, by simp, fun p hpl => by simp [hpl, V]⟩)
      hN hs hd hw hdw hT
    obtain ⟨r', f1, f2, f3, f4⟩ := verticalX86_raw (k := .avxLp) hrun (N := N) (src := src) (dst := dst) (fw := fw)
      (V := V) (fun y d hy hdl hp => ⟨_, avxColumnLp_spec hp, by simp, fun p hpl => by simp [hpl, V]⟩)
      hN hs hd hw hdw hT
    obtain ⟨p1, p2⟩ := paddingKept_raw hN hd e2 e4
    obtain ⟨q1, q2⟩ := paddingKept_raw hN hd f2 f4
    rw [e1, f1]
    refine congrArg some (image_ext p1 q1 p2 q2 fun y x c hy hx hc => ?_)
    unfold sample
    rw [e3 y x c hy hx hc, f3 y x c hy hx hc]
  · rw [if_neg hu]

theorem vertical512_total {cpu : Cpu512} (hr : cpu.Real) {s : Workload} {N : ℕ} {src dst : Image ℕ}
    {fw : FilterWeights ℤ} (hN : 1 ≤ N) (hs : src.validate N = .ok ()) (hd : dst.validate N = .ok ())
    (hw : src.width = dst.width) (hdw : 0 < dst.width) (hT : ValidTable fw src.height dst.height) :
    ∃ out, vertical512 cpu s N src dst fw = some out ∧
      verticalX86 cpu.base (selectV cpu.base s src.height dst.height) N src dst fw = some out ∧
      SameShape out dst ∧ PaddingKept N dst out := by
  obtain ⟨out, o1, o2, o3⟩ := verticalX86_total (selectV_runs cpu.base s src.height dst.height) hN hs hd hw hdw hT
  exact ⟨out, (vertical512_eq hr hN hs hd hw hdw hT).trans o1, o1, o2, o3⟩

/-! ### The horizontal VNNI pass -/

/-- A row value with the accumulator starting from `v0`. -/
def vnniRowVal (vld : ℤ) (w : List ℤ) (b : Bounds) (f : ℕ → ℕ) (c : ℕ) : ℕ :=
  packu (i32 (vStart vld b + wsum b.size (fun k => i16 (w.getD k 0))
    (fun k => ((f ((b.start + k) * 4 + c) % 256 : ℕ) : ℤ))))

theorem vnniRowVal_loc (vld : ℤ) (w : List ℤ) (b : Bounds) (f g : ℕ → ℕ) (c : ℕ) (_hb : 1 ≤ b.size) (hc : c < 4)
    (h : ∀ i, i < (b.start + b.size) * 4 → f i = g i) : vnniRowVal vld w b f c = vnniRowVal vld w b g c := by
  unfold vnniRowVal
  congr 3
  refine wsum_congr (fun _ _ => rfl) fun k hk => ?_
  rw [h _ (idx_lt hk hc)]

theorem vnniRowVal_px {y c : ℕ} {src : Image ℕ} (hc : c < 4) (vld : ℤ) (w : List ℤ) (b : Bounds) :
    vnniRowVal vld w b (fun i => src.buffer.getD (y * src.strideOf 4 + i) 0) c =
      vnniRowVal vld w b (fun i => pxD 0 src.buffer (src.strideOf 4) 4 y (i / 4) c) c := by
  unfold vnniRowVal
  congr 3
  refine wsum_congr (fun _ _ => rfl) fun k hk => ?_
  dsimp only
  rw [show ((b.start + k) * 4 + c) / 4 = b.start + k by omega, ← Nat.add_assoc]
  simp [pxD, sample, List.getD_eq_getElem?_getD]

theorem vVal_eq (vld : ℤ) (src : List ℕ) (o : ℕ) (w : List ℤ) (b : Bounds) (c : ℕ) :
    vVal vld src o w b c = vnniRowVal vld w b (fun i => src.getD (o + i) 0) c := by
  unfold vVal vAcc vnniRowVal pxb
  simp only [Nat.add_assoc]

/-- Rows in groups of four start from the rounding constant, the others from `PRECISION`. -/
def vnniLd (height y : ℕ) : ℤ := if y < height / 4 * 4 then 16384 else 15

theorem horizontalVnni_raw {cpu : Cpu512} (hv : cpu.vnni = true) {s : Workload} {src dst : Image ℕ}
    {fw : FilterWeights ℤ}
    (hs : src.validate 4 = .ok ()) (hd : dst.validate 4 = .ok ())
    (hh : src.height = dst.height) (hsw : 0 < src.width) (hdw : 0 < dst.width)
    (hT : ValidTable fw src.width dst.width) :
    ∃ out, horizontal512 cpu s 4 src dst fw = some out ∧ SameShape out dst ∧ PaddingKept 4 dst out ∧
      ∀ y x c, y < dst.height → x < dst.width → c < 4 →
        sample out.buffer (dst.strideOf 4) 4 y x c = some (vnniRowVal (vnniLd dst.height y) (fw.kernel x) (fw.bound x)
          (fun i => pxD 0 src.buffer (src.strideOf 4) 4 y (i / 4) c) c) := by
  obtain ⟨r, e1, e2, e3, e4⟩ := horizontalG_raw (d0 := 0) (N := 4) (src := src) (dst := dst) (fw := fw)
    (h1 := vnniRow1) (h4 := vnniRow4) (V1 := vnniRowVal 15) (V4 := vnniRowVal 16384)
    (fun s offs w b hp => by
      unfold vnniRow1
      rw [show ((PRECISION : ℕ) : ℤ) = 15 from rfl, vnniRows_spec (by decide) hp]
      refine congrArg some (List.map_congr_left fun o _ => List.map_congr_left fun c _ => vVal_eq _ _ _ _ _ _))
    (fun s offs w b hp => by
      unfold vnniRow4
      rw [show (ROUNDING_CONST : ℤ) = 16384 from rfl, vnniRows_spec (by decide) hp]
      refine congrArg some (List.map_congr_left fun o _ => List.map_congr_left fun c _ => vVal_eq _ _ _ _ _ _))
    (fun w b f g c => vnniRowVal_loc 15 w b f g c) (fun w b f g c => vnniRowVal_loc 16384 w b f g c)
    (by omega) hs hd hh hsw hdw hT
  obtain ⟨p1, p2⟩ := paddingKept_raw (by omega) hd e2 e4
  refine ⟨_, ?_, p1, p2, fun y x c hy hx hc => ?_⟩
  · unfold horizontal512 usesVnni
    rw [if_pos (by simp [hv])]
    exact e1
  · unfold sample
    rw [e3 y x c hy hx hc, ← vnniRowVal_px hc]
    unfold vnniLd
    split_ifs <;> rfl

/-! ### Passes that may look at the row -/

/-- Like `PassAbs`, the horizontal value may also depend on the height of the image and the row. -/
structure PassPos (N : ℕ) (F : Format S) (good : S → Prop) (okT : FilterWeights ℚ → ℕ → Prop)
    (vv : FilterWeights ℚ → ℕ → ℕ → ℕ → ℕ → ℕ → ℕ → (ℕ → S) → S)
    (hv : FilterWeights ℚ → ℕ → ℕ → ℕ → ℕ → (ℕ → S) → S) : Prop where
  vertical : ∀ (src dst : Image S) (fw : FilterWeights ℚ), src.validate N = .ok () →
    dst.validate N = .ok () → src.width = dst.width → 0 < dst.width →
    ValidTable fw src.height dst.height → okT fw dst.height → (∀ v ∈ src.buffer, good v) →
    ∃ out, F.vertical src dst fw = some out ∧ SameShape out dst ∧ PaddingKept N dst out ∧
      ∀ y x c, y < dst.height → x < dst.width → c < N →
        sample out.buffer (dst.strideOf N) N y x c = some (vv fw src.width src.height dst.height y x c (fun y' =>
          pxD F.default src.buffer (src.strideOf N) N y' x c))
  horizontal : ∀ (src dst : Image S) (fw : FilterWeights ℚ), src.validate N = .ok () →
    dst.validate N = .ok () → src.height = dst.height → 0 < src.width → 0 < dst.width →
    ValidTable fw src.width dst.width → okT fw dst.width → (∀ v ∈ src.buffer, good v) →
    ∃ out, F.horizontal src dst fw = some out ∧ SameShape out dst ∧ PaddingKept N dst out ∧
      ∀ y x c, y < dst.height → x < dst.width → c < N →
        sample out.buffer (dst.strideOf N) N y x c = some (hv fw dst.height y x c (fun x' =>
          pxD F.default src.buffer (src.strideOf N) N y x' c))
  good_v : ∀ fw w h h' y x c p, good (vv fw w h h' y x c p)
  cong_h : ∀ fw inn out h y x c p p', ValidTable fw inn out → okT fw out → x < out → c < N →
    (∀ x', x' < inn → p x' = p' x') → hv fw h y x c p = hv fw h y x c p'

theorem convolve_pos {W N : ℕ} {F : Format S} {good : S → Prop} {okT : FilterWeights ℚ → ℕ → Prop}
    {vv : FilterWeights ℚ → ℕ → ℕ → ℕ → ℕ → ℕ → ℕ → (ℕ → S) → S}
    {hv : FilterWeights ℚ → ℕ → ℕ → ℕ → ℕ → (ℕ → S) → S}
    (P : PassPos N F good okT vv hv) (hN : 1 ≤ N)
    {table : ℕ → ℕ → Option (FilterWeights ℚ)} {store into : Image S} {vf hf : FilterWeights ℚ}
    (hs : store.validate N = .ok ()) (hd : into.validate N = .ok ()) (hsw : 0 < store.width)
    (hdw : 0 < into.width)
    (hne : store.width ≠ into.width ∨ store.height ≠ into.height)
    (hfit : store.width * into.height * N < W)
    (ev : table store.height into.height = some vf) (eh : table store.width into.width = some hf)
    (Tv : ValidTable vf store.height into.height) (Th : ValidTable hf store.width into.width)
    (Ov : okT vf into.height) (Oh : okT hf into.width) (hg : ∀ v ∈ store.buffer, good v) :
    ∃ out, convolve W N F table store into = some out ∧ SameShape out into ∧ PaddingKept N into out ∧
      ∀ y x c, y < into.height → x < into.width → c < N →
        sample out.buffer (into.strideOf N) N y x c = some (sepAbs store.width store.height
          into.width into.height (vv vf store.width store.height into.height) (hv hf into.height y) c
          (fun y x => pxD F.default store.buffer (store.strideOf N) N y x c) y x) := by
  unfold convolve
  by_cases h1 : store.width = into.width
  · have h2 : store.height ≠ into.height := by tauto
    rw [if_neg (by tauto), if_pos h2, ev]
    obtain ⟨out, o1, o2, o3, o4⟩ := P.vertical store into vf hs hd h1 hdw Tv Ov hg
    refine ⟨out, o1, o2, o3, ?_⟩
    intro y x c hy hx hc
    rw [o4 y x c hy hx hc]
    simp only [sepAbs, if_pos h1, if_neg h2]
  by_cases h2 : store.height = into.height
  · rw [if_neg (by tauto), if_neg (by tauto), eh]
    obtain ⟨out, o1, o2, o3, o4⟩ := P.horizontal store into hf hs hd h2 hsw hdw Th Oh hg
    refine ⟨out, o1, o2, o3, ?_⟩
    intro y x c hy hx hc
    rw [o4 y x c hy hx hc]
    simp only [sepAbs, if_neg h1, if_pos h2]
  · rw [if_pos ⟨h1, h2⟩, tempImage_some hfit, ev, eh]
    simp only [Option.bind_eq_bind, Option.bind_some]
    obtain ⟨t, t1, t2, _, t4⟩ := P.vertical store
      { buffer := List.replicate (store.width * into.height * N) F.default, channels := N,
        width := store.width, height := into.height, stride := store.width * N, bitDepth := into.bitDepth }
      vf hs (packed_validate (by rw [List.length_replicate])) rfl hsw Tv Ov hg
    obtain ⟨_, _, _, _, _, tl⟩ := t2
    simp only [List.length_replicate] at tl
    simp only [packed_strideOf] at t4
    rw [t1]
    simp only [Option.bind_some]
    have hmid : (Image.mk t.buffer N store.width into.height (store.width * N) into.bitDepth).validate N
        = .ok () := packed_validate tl
    obtain ⟨out, o1, o2, o3, o4⟩ := P.horizontal
      (Image.mk t.buffer N store.width into.height (store.width * N) into.bitDepth) into hf hmid hd rfl
      hsw hdw Th Oh (by
        intro v hv'
        obtain ⟨i, hi, rfl⟩ := List.getElem_of_mem hv'
        simp only at hi
        obtain ⟨y, x, c, hy, hx, hc, rfl⟩ := packed_pixel hN hsw (tl ▸ hi)
        have := t4 y x c hy hx hc
        simp only [sample] at this
        rw [List.getElem?_eq_getElem hi] at this
        rw [Option.some.inj this]
        exact P.good_v _ _ _ _ _ _ _ _)
    refine ⟨out, o1, o2, o3, ?_⟩
    intro y x c hy hx hc
    rw [o4 y x c hy hx hc]
    simp only [sepAbs, if_neg h1, if_neg h2]
    congr 1
    apply P.cong_h _ _ _ _ _ _ _ _ _ Th Oh hx hc
    intro x' hx'
    rw [packed_strideOf]
    simp only [pxD]
    rw [t4 y _ c hy hx' hc]
    rfl

/-- The VNNI passes. -/
theorem passPos_vnni {cpu : Cpu512} (hr : cpu.Real) (hv : cpu.vnni = true) (s : Workload) :
    PassPos 4 (format512 cpu s 4) (· ≤ 255)
      (fun fw out => PlainShape fw out ∧ NoOverflow30 (numericalApproximation F32.rnd fw) out)
      (fun fw w h h' y x c P => (selectV cpu.base s h h').value (numericalApproximation F32.rnd fw) (w * 4) y (x * 4 + c) P)
      (fun fw h y x c P => vnniRowVal (vnniLd h y) ((numericalApproximation F32.rnd fw).kernel x)
        ((numericalApproximation F32.rnd fw).bound x) (fun i => P (i / 4)) c) := by
  constructor
  · intro src dst fw hs hd hw hdw hT hO hg
    have hT' := hO.1.q_valid (ρ := F32.rnd) hT
    have P := (passAbs_x86 (cpu := cpu.base) (hk := .scalar) (vk := selectV cpu.base s src.height dst.height)
      (by obtain ⟨b, _, _, _⟩ := cpu; cases b; rfl) (selectV_runs _ _ _ _) (N := 4) (by simp [HKernel.fits]))
    obtain ⟨out, o1, o2, o3, o4⟩ := P.vertical src dst fw hs hd hw hdw hT hO hg
    exact ⟨out, (vertical512_eq hr (by omega) hs hd hw hdw hT').trans o1, o2, o3, o4⟩
  · intro src dst fw hs hd hh hsw hdw hT hO hg
    exact horizontalVnni_raw hv hs hd hh hsw hdw (hO.1.q_valid (ρ := F32.rnd) hT)
  · intro fw w h h' y x c p; exact VKernel.value_le _ _ _ _ _ _
  · intro fw inn out h y x c p p' hT hO hx hc hp
    have hT' := hO.1.q_valid (ρ := F32.rnd) hT
    have hin := hT'.inside x hx
    refine vnniRowVal_loc _ _ _ _ _ c (hT'.size_pos x hx) hc fun i hi => hp _ ?_
    rw [Nat.div_lt_iff_lt_mul (by omega)]
    exact lt_of_lt_of_le hi (Nat.mul_le_mul_right _ hin)

/-- The row value, as a formula. -/
theorem vnniRowVal_value {q : FilterWeights ℤ} {inn out h y x c : ℕ} (hc : c < 4)
    (hT : ValidTable q inn out) (hx : x < out) (hW : I16Weights q) (hO : NoOverflow30 q out) {P : ℕ → ℕ}
    (hP : ∀ i, P i ≤ 255) :
    vnniRowVal (vnniLd h y) (q.kernel x) (q.bound x) (fun i => P (i / 4)) c =
      if y < h / 4 * 4 ∨ 4 < (q.bound x).size then
        fixedRound 255 (q.bound x).size (fun k => q.weight x k) (fun k => P ((q.bound x).start + k))
      else fixedBias 15 (q.bound x).size (fun k => q.weight x k) (fun k => P ((q.bound x).start + k)) := by
  have e : ∀ v0 : ℤ, 0 ≤ v0 → v0 ≤ 16384 →
      packu (i32 (v0 + wsum (q.bound x).size (fun k => i16 ((q.kernel x).getD k 0))
        (fun k => ((P ((((q.bound x).start + k) * 4 + c) / 4) % 256 : ℕ) : ℤ)))) =
      fixedBias v0 (q.bound x).size (fun k => q.weight x k) (fun k => P ((q.bound x).start + k)) := by
    intro v0 h0 h1
    have e1 : wsum (q.bound x).size (fun k => i16 ((q.kernel x).getD k 0))
        (fun k => ((P ((((q.bound x).start + k) * 4 + c) / 4) % 256 : ℕ) : ℤ)) =
        wsum (q.bound x).size (fun k => q.weight x k) (fun k => ((P ((q.bound x).start + k) : ℕ) : ℤ)) := by
      refine wsum_congr (fun k hk => ?_) fun k hk => ?_
      · rw [kernel_getD_lt hT hx hk]
        have := hW.weight x k
        exact i16_eq_self (by omega) (by omega)
      · rw [show (((q.bound x).start + k) * 4 + c) / 4 = (q.bound x).start + k by omega]
        have := hP ((q.bound x).start + k)
        rw [Nat.mod_eq_of_lt (by omega)]
    rw [e1]
    have hb' := wsum_abs_le (n := (q.bound x).size) (w := fun k => q.weight x k)
      (p := fun k => ((P ((q.bound x).start + k) : ℕ) : ℤ)) (M := 255)
      (fun k hk => by have := hP ((q.bound x).start + k); omega)
    have hb := hO x hx
    rw [abs_le] at hb'
    push_cast at hb'
    rw [i32_eq_self (by omega) (by omega), packu_eq (by omega)]
    unfold saturateNarrow fixedBias Spec.clamp
    rw [shiftRight_eq_floor]
    generalize ⌊(((v0 + wsum (q.bound x).size (fun k => q.weight x k)
      (fun k => ((P ((q.bound x).start + k) : ℕ) : ℤ)) : ℤ) : ℚ) / 32768)⌋ = z
    congr 1
    omega
  have e2 : fixedBias 16384 (q.bound x).size (fun k => q.weight x k) (fun k => P ((q.bound x).start + k)) =
      fixedRound 255 (q.bound x).size (fun k => q.weight x k) (fun k => P ((q.bound x).start + k)) := by
    unfold fixedBias fixedRound fixRound
    congr 2
    push_cast; ring
  unfold vnniRowVal
  dsimp only
  unfold vStart vnniLd
  by_cases h4 : (q.bound x).size > 4
  · rw [if_pos h4, if_pos (Or.inr h4), e 16384 (by norm_num) (by norm_num), e2]
  · rw [if_neg h4]
    by_cases hy : y < h / 4 * 4
    · rw [if_pos hy, if_pos (Or.inl hy), e 16384 (by norm_num) (by norm_num), e2]
    · rw [if_neg hy, if_neg (by tauto), e 15 (by norm_num) (by norm_num)]

end PicScale
