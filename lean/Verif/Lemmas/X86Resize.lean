import Verif.Lemmas.X86Abs

/-! The values of all x86 handlers, and the x86 resize as a whole. -/

namespace PicScale

open Finset Spec

theorem q_i16 {fw : FilterWeights ℚ} {inn out : ℕ} (h : PlainShape fw out) (v : ValidTable fw inn out) :
    I16Weights (numericalApproximation F32.rnd fw) := by
  intro w hw
  rw [h.q_weights v] at hw
  obtain ⟨a, _, rfl⟩ := List.mem_map.1 hw
  exact quantise_range a

/-- One low precision value, with the 16-bit accumulator. -/
def lowMachine (n : ℕ) (w : ℕ → ℤ) (s : ℕ → ℕ) : ℕ :=
  clamp 255 (i16 (32 + ∑ k ∈ range n, lpTerm (s k) (w k)) >>> 6)

/-- Value of a vertical handler at element `p` of a row of `len` elements. -/
def VKernel.value (k : VKernel) (q : FilterWeights ℤ) (len y p : ℕ) (P : ℕ → ℕ) : ℕ :=
  match k with
  | .scalar => fixedFloor 255 (q.bound y).size (fun j => q.weight y j) (fun j => P ((q.bound y).start + j))
  | .avx => fixedRound 255 (q.bound y).size (fun j => q.weight y j) (fun j => P ((q.bound y).start + j))
  | .sse => if p < 32 * ((len - 1) / 32) then
      clamp 255 (16384 + wsum (q.bound y).size (fun j => q.weight y j) (fun j => ((P ((q.bound y).start + j) : ℕ) : ℤ)))
    else fixedRound 255 (q.bound y).size (fun j => q.weight y j) (fun j => P ((q.bound y).start + j))
  | .sseLp => lowMachine (q.bound y).size (fun j => q.weight y j) (fun j => P ((q.bound y).start + j))
  | .avxLp => lowMachine (q.bound y).size (fun j => q.weight y j) (fun j => P ((q.bound y).start + j))

/-- Value of a horizontal handler: channel `c` of output pixel `x`, `P` the samples of the row. -/
def HKernel.value (k : HKernel) (N : ℕ) (q : FilterWeights ℤ) (x c : ℕ) (P : ℕ → ℕ) : ℕ :=
  match k with
  | .scalar => fixedRound 255 (q.bound x).size (fun j => q.weight x j) (fun j => P ((q.bound x).start + j))
  | k => k.row N (q.kernel x) (q.bound x) (fun i => P (i / N)) c

theorem lowMachine_le (n : ℕ) (w : ℕ → ℤ) (s : ℕ → ℕ) : lowMachine n w s ≤ 255 := clamp_le _ _

theorem VKernel.value_le (k : VKernel) (q : FilterWeights ℤ) (len y p : ℕ) (P : ℕ → ℕ) :
    k.value q len y p P ≤ 255 := by
  cases k
  · exact clamp_le _ _
  · show (if _ then _ else _) ≤ 255
    split_ifs
    · exact clamp_le _ _
    · exact clamp_le _ _
  · exact clamp_le _ _
  · exact clamp_le _ _
  · exact clamp_le _ _

theorem lpAt_machine {N : ℕ} {src : Image ℕ} {fw : FilterWeights ℤ} {y x c : ℕ} (hW : I16Weights fw)
    (hM : ∀ v ∈ src.buffer, v ≤ 255) :
    lpAt src.buffer (src.strideOf N) (fw.weights.drop (y * fw.alignedSize)) (fw.bound y) (x * N + c) =
      lowMachine (fw.bound y).size (fun k => fw.weight y k)
        (fun k => pxD 0 src.buffer (src.strideOf N) N ((fw.bound y).start + k) x c) := by
  unfold lpAt lpAcc lowMachine
  congr 4
  refine sum_congr rfl fun k hk => ?_
  rw [drop_getD_weight, byte_mod hM, Nat.mul_comm, Nat.add_zero, ← Nat.add_assoc]
  have := hW.weight y k
  rw [i16_eq_self (by omega) (by omega)]
  simp [pxD, sample, List.getD_eq_getElem?_getD]

theorem verticalSse_pass {cpu : Cpu} (hk : cpu.runsV .sse = true) {N : ℕ} {src dst : Image ℕ}
    {fw : FilterWeights ℤ} (hN : 1 ≤ N) (hs : src.validate N = .ok ()) (hd : dst.validate N = .ok ())
    (hw : src.width = dst.width) (hdw : 0 < dst.width) (hT : ValidTable fw src.height dst.height)
    (hW : I16Weights fw) (hO : NoOverflow30 fw dst.height) (hM : ∀ v ∈ src.buffer, v ≤ 255) :
    ∃ out, verticalX86 cpu .sse N src dst fw = some out ∧ SameShape out dst ∧ PaddingKept N dst out ∧
      ∀ y x c, y < dst.height → x < dst.width → c < N →
        sample out.buffer (dst.strideOf N) N y x c = some (VKernel.sse.value fw (src.width * N) y (x * N + c)
          (fun y' => pxD 0 src.buffer (src.strideOf N) N y' x c)) := by
  obtain ⟨r, e1, e2, e3, e4⟩ := verticalX86_raw (k := .sse) hk (N := N) (src := src) (dst := dst) (fw := fw)
    (V := fun y p => VKernel.sse.value fw (src.width * N) y p
      (fun y' => pxD 0 src.buffer (src.strideOf N) N y' (p / N) (p % N)))
    (fun y d hy hdl hp => by
      obtain ⟨r, h1, h2, h3, h4, h5⟩ := sseColumn_spec hp
      refine ⟨r, h1, h2, fun p hpl => ?_⟩
      have hp0 : p / N * N + p % N = p := Nat.div_add_mod' p N
      have ea := accAt_eq (y := y) (x := p / N) (c := p % N) hW hM (N := N)
      rw [hp0] at ea
      obtain ⟨a1, a2⟩ := acc_exact (hO y hy) (p := fun k => pxD 0 src.buffer (src.strideOf N) N
          ((fw.bound y).start + k) (p / N) (p % N)) fun k _ => pxD_le255 hM _ _ _ _ _
      show _ = some (if _ then _ else _)
      rw [hw, ← hdl]
      split_ifs with hc
      · rw [h3 p hc hpl, ea, a1]
      · rcases Nat.lt_or_ge p (16 * ((d.length - 1) / 16)) with h | h
        · rw [h4 p (by omega) h hpl, ea, saturate_exact (hO y hy) fun k _ => pxD_le255 hM _ _ _ _ _]
        · rw [h5 p (by omega) h hpl, ea, packu_exact (hO y hy) fun k _ => pxD_le255 hM _ _ _ _ _])
    hN hs hd hw hdw hT
  obtain ⟨p1, p2⟩ := paddingKept_raw hN hd e2 e4
  refine ⟨_, e1, p1, p2, fun y x c hy hx hc => ?_⟩
  unfold sample
  rw [e3 y x c hy hx hc, show (x * N + c) / N = x by rw [Nat.mul_comm, Nat.mul_add_div hN, Nat.div_eq_of_lt hc, Nat.add_zero],
    show (x * N + c) % N = c by rw [Nat.mul_comm, Nat.mul_add_mod, Nat.mod_eq_of_lt hc]]

theorem verticalLowMachine_pass {cpu : Cpu} {k : VKernel} (hl : k = .sseLp ∨ k = .avxLp) (hk : cpu.runsV k = true)
    {N : ℕ} {src dst : Image ℕ}
    {fw : FilterWeights ℤ} (hN : 1 ≤ N) (hs : src.validate N = .ok ()) (hd : dst.validate N = .ok ())
    (hw : src.width = dst.width) (hdw : 0 < dst.width) (hT : ValidTable fw src.height dst.height)
    (hW : I16Weights fw) (hM : ∀ v ∈ src.buffer, v ≤ 255) :
    ∃ out, verticalX86 cpu k N src dst fw = some out ∧ SameShape out dst ∧ PaddingKept N dst out ∧
      ∀ y x c, y < dst.height → x < dst.width → c < N →
        sample out.buffer (dst.strideOf N) N y x c = some (lowMachine (fw.bound y).size
          (fun k => fw.weight y k)
          (fun k => pxD 0 src.buffer (src.strideOf N) N ((fw.bound y).start + k) x c)) := by
  obtain ⟨r, e1, e2, e3, e4⟩ := verticalX86_raw (k := k) hk (N := N) (src := src) (dst := dst) (fw := fw)
    (V := fun y p => lpAt src.buffer (src.strideOf N) (fw.weights.drop (y * fw.alignedSize)) (fw.bound y) p)
    (fun y d hy hdl hp => by
      have e : k.column (fw.bound y) src.buffer d (src.strideOf N) (fw.weights.drop (y * fw.alignedSize)) =
          some ((List.range d.length).map (lpAt src.buffer (src.strideOf N)
            (fw.weights.drop (y * fw.alignedSize)) (fw.bound y))) := by
        rcases hl with rfl | rfl
        · exact sseColumnLp_spec hp
        · exact avxColumnLp_spec hp
      refine ⟨_, e, by simp, fun p hpl => by simp [hpl]⟩)
    hN hs hd hw hdw hT
  obtain ⟨p1, p2⟩ := paddingKept_raw hN hd e2 e4
  refine ⟨_, e1, p1, p2, fun y x c hy hx hc => ?_⟩
  unfold sample
  rw [e3 y x c hy hx hc, lpAt_machine hW hM]

theorem exactRow_cong {N : ℕ} (w : List ℤ) (b : Bounds) (f g : ℕ → ℕ) (c : ℕ)
    (h : ∀ j, f (j * N + c) = g (j * N + c)) : exactRow N w b f c = exactRow N w b g c := by
  unfold exactRow
  congr 3
  refine wsum_congr (fun _ _ => rfl) fun k hk => ?_
  rw [h]

theorem lowRow_cong {N : ℕ} (W : ℕ → ℕ → ℤ) (b : Bounds) (f g : ℕ → ℕ) (c : ℕ)
    (h : ∀ j, f (j * N + c) = g (j * N + c)) : lowRow W N b f c = lowRow W N b g c := by
  unfold lowRow
  congr 4
  refine sum_congr rfl fun k hk => ?_
  rw [h]

theorem rgbAvxRow_cong (w : List ℤ) (b : Bounds) (f g : ℕ → ℕ) (c : ℕ)
    (h : ∀ j, f (j * 3 + c) = g (j * 3 + c)) : rgbAvxRow w b f c = rgbAvxRow w b g c := by
  unfold rgbAvxRow
  congr 3
  refine wsum_congr (fun _ _ => rfl) fun k hk => ?_
  have h0 := h 0
  rw [Nat.zero_mul, Nat.zero_add] at h0
  rw [h, h0]

theorem HKernel.row_cong {N : ℕ} {k : HKernel} (hf : k.fits N) (w : List ℤ) (b : Bounds) (f g : ℕ → ℕ) (c : ℕ)
    (h : ∀ j, f (j * N + c) = g (j * N + c)) : k.row N w b f c = k.row N w b g c := by
  cases k
  case rgbAvx =>
    have hf : N = 3 := hf
    subst hf
    show rgbAvxRow w b f c = rgbAvxRow w b g c
    exact rgbAvxRow_cong w b f g c h
  case rgbaAvxLb =>
    show lowRow (wAvx w b) N b f c = lowRow (wAvx w b) N b g c
    exact lowRow_cong _ b f g c h
  case planeSseHrs =>
    show lowRow (wAll w) N b f c = lowRow (wAll w) N b g c
    exact lowRow_cong _ b f g c h
  case cbcrSseHrs =>
    show lowRow (wAll w) N b f c = lowRow (wAll w) N b g c
    exact lowRow_cong _ b f g c h
  case rgbaSseLb =>
    show lowRow (wAll w) N b f c = lowRow (wAll w) N b g c
    exact lowRow_cong _ b f g c h
  all_goals
    show exactRow N w b f c = exactRow N w b g c
    exact exactRow_cong w b f g c h

theorem row_px {N y c : ℕ} {src : Image ℕ} (hN : 1 ≤ N) (hc : c < N) {k : HKernel} (hf : k.fits N)
    (w : List ℤ) (b : Bounds) :
    k.row N w b (fun i => src.buffer.getD (y * src.strideOf N + i) 0) c =
      k.row N w b (fun i => pxD 0 src.buffer (src.strideOf N) N y (i / N) c) c := by
  refine HKernel.row_cong hf w b _ _ c fun j => ?_
  rw [show (j * N + c) / N = j by rw [Nat.mul_comm, Nat.mul_add_div hN, Nat.div_eq_of_lt hc, Nat.add_zero],
      ← Nat.add_assoc]
  simp [pxD, sample, List.getD_eq_getElem?_getD]

/-- All x86 handlers. -/
theorem passAbs_x86 {cpu : Cpu} {hk : HKernel} {vk : VKernel} (rh : cpu.runsH hk = true) (rv : cpu.runsV vk = true)
    {N : ℕ} (hf : hk.fits N) :
    PassAbs N (formatKernels cpu hk vk N) (· ≤ 255)
      (fun fw out => PlainShape fw out ∧ NoOverflow30 (numericalApproximation F32.rnd fw) out)
      (fun fw w y x c P => vk.value (numericalApproximation F32.rnd fw) (w * N) y (x * N + c) P)
      (fun fw x c P => hk.value N (numericalApproximation F32.rnd fw) x c P) := by
  have hN : 1 ≤ N ∧ N ≤ 4 := by cases hk <;> simp only [HKernel.fits] at hf <;> omega
  constructor
  · intro src dst fw hs hd hw hdw hT hO hg
    have hT' := hO.1.q_valid (ρ := F32.rnd) hT
    have hW := q_i16 hO.1 hT
    cases vk
    · obtain ⟨out, o1, o2, o3, o4⟩ := C19_vertical_pass (hi := 255) hN.1 hs hd hw hdw hT' hg hO.2.to31
      refine ⟨out, ?_, o2, o3, fun y x c hy hx hc => by rw [o4 y x c hy hx hc]; rfl⟩
      show verticalX86 cpu .scalar N src dst _ = _
      unfold verticalX86
      rw [if_pos rv]
      exact o1
    · exact verticalSse_pass rv hN.1 hs hd hw hdw hT' hW hO.2 hg
    · exact verticalAvx_pass rv hN.1 hs hd hw hdw hT' hW hO.2 hg
    · exact verticalLowMachine_pass (Or.inl rfl) rv hN.1 hs hd hw hdw hT' hW hg
    · exact verticalLowMachine_pass (Or.inr rfl) rv hN.1 hs hd hw hdw hT' hW hg
  · intro src dst fw hs hd hh hsw hdw hT hO hg
    have hT' := hO.1.q_valid (ρ := F32.rnd) hT
    have hW := q_i16 hO.1 hT
    by_cases hsc : hk = .scalar
    · subst hsc
      obtain ⟨out, o1, o2, o3, o4⟩ := C18_horizontal_pass (hi := 255) hN hs hd hh hsw hdw hT' hg hO.2.to31
      exact ⟨out, o1, o2, o3, fun y x c hy hx hc => by rw [o4 y x c hy hx hc]; rfl⟩
    · obtain ⟨r, e1, e2, e3, e4⟩ := horizontalX86_raw rh hf hsc hs hd hh hsw hdw hT'
      obtain ⟨p1, p2⟩ := paddingKept_raw hN.1 hd e2 e4
      refine ⟨_, e1, p1, p2, fun y x c hy hx hc => ?_⟩
      unfold sample
      rw [e3 y x c hy hx hc, row_px hN.1 hc hf _ _]
      congr 1
      cases hk <;> first | rfl | exact absurd rfl hsc
  · intro fw w y x c p; exact vk.value_le _ _ _ _ _
  · intro fw inn out x c p p' hT hO hx hc hp
    have hT' := hO.1.q_valid (ρ := F32.rnd) hT
    have hin := hT'.inside x hx
    by_cases hsc : hk = .scalar
    · subst hsc
      show fixedRound _ _ _ _ = fixedRound _ _ _ _
      unfold fixedRound
      congr 2
      exact wsum_congr (fun _ _ => rfl) fun k hk => by dsimp only; rw [hp _ (by omega)]
    · have : hk.row N ((numericalApproximation F32.rnd fw).kernel x) ((numericalApproximation F32.rnd fw).bound x)
          (fun i => p (i / N)) c =
          hk.row N ((numericalApproximation F32.rnd fw).kernel x) ((numericalApproximation F32.rnd fw).bound x)
          (fun i => p' (i / N)) c := by
        refine HKernel.row_loc hf _ _ _ _ c (hT'.size_pos x hx) hc fun i hi => ?_
        refine hp _ ?_
        rw [Nat.div_lt_iff_lt_mul hN.1]
        exact lt_of_lt_of_le hi (Nat.mul_le_mul_right _ hin)
      cases hk <;> first | exact this | exact absurd rfl hsc

/-- Every handler returns on every valid table, whatever the samples. -/
theorem verticalX86_total {cpu : Cpu} {vk : VKernel} (rv : cpu.runsV vk = true) {N : ℕ} (hN : 1 ≤ N)
    {src dst : Image ℕ} {fw : FilterWeights ℤ} (hs : src.validate N = .ok ()) (hd : dst.validate N = .ok ())
    (hw : src.width = dst.width) (hdw : 0 < dst.width) (hT : ValidTable fw src.height dst.height) :
    ∃ out, verticalX86 cpu vk N src dst fw = some out ∧ SameShape out dst ∧ PaddingKept N dst out := by
  have key : ∀ y, ∃ v : ℕ → ℕ, ∀ d : List ℕ, d.length = dst.width * N →
      VPre src.buffer (src.strideOf N) (fw.weights.drop (y * fw.alignedSize)) (fw.bound y) d.length →
      ∃ r, vk.column (fw.bound y) src.buffer d (src.strideOf N) (fw.weights.drop (y * fw.alignedSize)) =
        some r ∧ r.length = d.length ∧ ∀ p, p < d.length → r[p]? = some (v p) := by
    intro y
    obtain ⟨a, ha⟩ : ∃ a : ℕ → ℤ, a = accAt src.buffer (src.strideOf N)
      (fw.weights.drop (y * fw.alignedSize)) (fw.bound y) := ⟨_, rfl⟩
    cases vk
    · refine ⟨fun p => saturateNarrow 255 (vSum src.buffer (src.strideOf N)
        (fw.weights.drop (y * fw.alignedSize)) (fw.bound y) p), fun d hdl hp => ?_⟩
      exact columnFixed_spec hp.1 hp.2 hp.3
    · refine ⟨fun p => if p < 32 * ((dst.width * N - 1) / 32) then clamp 255 (a p)
        else if p < 16 * ((dst.width * N - 1) / 16) then saturateNarrow 255 (a p) else packu (a p), fun d hdl hp => ?_⟩
      obtain ⟨r, h1, h2, h3, h4, h5⟩ := sseColumn_spec hp
      rw [hdl] at h3 h4 h5
      refine ⟨r, h1, h2, fun p hpl => ?_⟩
      rw [hdl] at hpl
      dsimp only
      split_ifs with c1 c2
      · rw [h3 p c1 hpl, ha]
      · rw [h4 p (by omega) c2 hpl, ha]
      · rw [h5 p (by omega) (by omega) hpl, ha]
    · refine ⟨fun p => if p < 32 * ((dst.width * N - 1) / 32) then saturateNarrow 255 (a p) else packu (a p),
        fun d hdl hp => ?_⟩
      obtain ⟨r, h1, h2, h3, h4⟩ := avxColumn_spec hp
      rw [hdl] at h3 h4
      refine ⟨r, h1, h2, fun p hpl => ?_⟩
      rw [hdl] at hpl
      dsimp only
      split_ifs with c1
      · rw [h3 p c1 hpl, ha]
      · rw [h4 p (by omega) hpl, ha]
    · exact ⟨lpAt src.buffer (src.strideOf N) (fw.weights.drop (y * fw.alignedSize)) (fw.bound y), fun d hdl hp =>
        ⟨_, sseColumnLp_spec hp, by simp, fun p hpl => by simp [hpl]⟩⟩
    · exact ⟨lpAt src.buffer (src.strideOf N) (fw.weights.drop (y * fw.alignedSize)) (fw.bound y), fun d hdl hp =>
        ⟨_, avxColumnLp_spec hp, by simp, fun p hpl => by simp [hpl]⟩⟩
  choose V hV using key
  obtain ⟨r, e1, e2, _, e4⟩ := verticalX86_raw rv (N := N) (src := src) (dst := dst) (fw := fw) (V := V)
    (fun y d _ hdl hp => hV y d hdl hp) hN hs hd hw hdw hT
  obtain ⟨p1, p2⟩ := paddingKept_raw hN hd e2 e4
  exact ⟨_, e1, p1, p2⟩

theorem horizontalX86_total {cpu : Cpu} {hk : HKernel} (rh : cpu.runsH hk = true) {N : ℕ} (hf : hk.fits N)
    {src dst : Image ℕ} {fw : FilterWeights ℤ} (hs : src.validate N = .ok ()) (hd : dst.validate N = .ok ())
    (hh : src.height = dst.height) (hsw : 0 < src.width) (hdw : 0 < dst.width)
    (hT : ValidTable fw src.width dst.width) :
    ∃ out, horizontalX86 cpu hk N src dst fw = some out ∧ SameShape out dst ∧ PaddingKept N dst out := by
  have hN : 1 ≤ N ∧ N ≤ 4 := by cases hk <;> simp only [HKernel.fits] at hf <;> omega
  by_cases hsc : hk = .scalar
  · subst hsc
    obtain ⟨r, e1, e2, _, e4⟩ := horizontalFixed_raw (hi := 255) hN hs hd hh hsw hdw hT
    obtain ⟨p1, p2⟩ := paddingKept_raw hN.1 hd e2 e4
    exact ⟨_, e1, p1, p2⟩
  · obtain ⟨r, e1, e2, _, e4⟩ := horizontalX86_raw rh hf hsc hs hd hh hsw hdw hT
    obtain ⟨p1, p2⟩ := paddingKept_raw hN.1 hd e2 e4
    exact ⟨_, e1, p1, p2⟩

theorem selectH_fits (cpu : Cpu) (s : Workload) {N : ℕ} (hN : 1 ≤ N ∧ N ≤ 4) (sw sh dw dh : ℕ) :
    (selectH cpu s N sw sh dw dh).fits N := by
  obtain ⟨h1, h4⟩ := hN
  interval_cases N <;> unfold selectH <;> simp only <;> split_ifs <;> simp [HKernel.fits]

theorem selectV_runs (cpu : Cpu) (s : Workload) (sh dh : ℕ) : cpu.runsV (selectV cpu s sh dh) = true := by
  obtain ⟨a, b⟩ := cpu
  unfold selectV
  cases a <;> cases b <;> cases below8 sh dh <;> cases s <;> rfl

/-- Handlers are only selected on CPUs that have them, except for the RGBA "prefer speed" path. -/
theorem selectH_runs (cpu : Cpu) (s : Workload) {N : ℕ} (hN : 1 ≤ N ∧ N ≤ 4) (sw sh dw dh : ℕ)
    (h : N ≤ 3 ∨ s = .preferQuality ∨ cpu.avx2 = true ∨ below8 sw dw = false) :
    cpu.runsH (selectH cpu s N sw sh dw dh) = true := by
  obtain ⟨a, b⟩ := cpu
  obtain ⟨h1, h4⟩ := hN
  interval_cases N <;> unfold selectH <;>
    cases a <;> cases b <;> cases hb : below8 sw dw <;> cases hb' : below8 sh dh <;> cases s <;> simp_all [Cpu.runsH, HKernel.needsAvx2, HKernel.needsSse41]

end PicScale
