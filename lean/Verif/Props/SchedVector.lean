import Verif.Lemmas.SchedVector
import Verif.Props.AlphaX86U16Resize
import Verif.Props.Ar30

/-! C204–C208: threads and the vector code.

A `Machine` has pools; `Pool.Valid` says that a pool runs every parallel loop by *some* interleaving of the reads and
writes of its row tasks (`Model/Sched.lean`). `genericResize`, `genericResizeWithAlpha`, `resize30X86`,
`resize30Neon` on the right-hand sides are the sequential code, which is what the other theorems of this project are
about. -/

namespace PicScale

/-! ### C204: `x86_64` -/

/-- **C204**, 8 bit: for one to four channels, any CPU and workload strategy, under every threading policy and every
schedule, `resize` returns and writes what the sequential code does. -/
theorem C204_threads_x86_u8 (M : Machine) (hM : ∀ n, (M.pool n).Valid) (p : Policy) (W : ℕ) {N : ℕ}
    (hN : N = 1 ∨ N = 2 ∨ N = 3 ∨ N = 4) (cpu : Cpu) (s : Workload) (L : Lib) (r : ResamplingFunction)
    (store into : Image ℕ) :
    resizeOn M p W N (fun E => formatX86On E cpu s N) L r store into =
      genericResize W N (formatX86 cpu s N) L r store into :=
  resizeOn_eq hM p W (by omega) (poolFree_x86 cpu s hN) L r store into

/-- **C204**, 16 bit. -/
theorem C204_threads_x86_u16 (M : Machine) (hM : ∀ n, (M.pool n).Valid) (p : Policy) (W N : ℕ) (hN : 1 ≤ N) (cpu : Cpu)
    (fma fused : Bool) (L : Lib) (r : ResamplingFunction) (store into : Image ℕ) :
    resizeOn M p W N (fun E => formatU16X86On E cpu fma fused N) L r store into =
      genericResize W N (formatU16X86 cpu fma fused N) L r store into :=
  resizeOn_eq hM p W hN (poolFree_u16X86 cpu fma fused N) L r store into

/-- **C204**, `f32`, in every arithmetic. -/
theorem C204_threads_x86_f32 {A : Type} (M : Machine) (hM : ∀ n, (M.pool n).Valid) (p : Policy) (W N : ℕ) (hN : 1 ≤ N)
    (cpu : Cpu) (fma fused : Bool) (o : VecOps A) (L : Lib) (r : ResamplingFunction) (store into : Image A) :
    resizeOn M p W N (fun E => formatF32X86On E cpu fma fused o N) L r store into =
      genericResize W N (formatF32X86 cpu fma fused o N) L r store into :=
  resizeOn_eq hM p W hN (poolFree_f32X86 cpu fma fused o N) L r store into

/-- **C204**, packed 10 bit. -/
theorem C204_threads_x86_ar30 (M : Machine) (hM : ∀ n, (M.pool n).Valid) (p : Policy) (cpu : Cpu) (W : ℕ) (t : Rgb30)
    (o : Ar30Order) (L : Lib) (r : ResamplingFunction) (src dst : Image ℕ) :
    resize30X86Under M p cpu W t o L r src dst = resize30X86 cpu W t o L r src dst :=
  resize30X86On_eq (fun _ hP => poolFor_valid hM hP) L r src dst

/-! ### C205: `aarch64` -/

/-- **C205**, 8 bit: as C204, with or without `rdm`. -/
theorem C205_threads_neon_u8 (M : Machine) (hM : ∀ n, (M.pool n).Valid) (p : Policy) (W : ℕ) {N : ℕ}
    (hN : N = 1 ∨ N = 2 ∨ N = 3 ∨ N = 4) (rdm : Bool) (s : Workload) (L : Lib) (r : ResamplingFunction)
    (store into : Image ℕ) :
    resizeOn M p W N (fun E => formatNeonOn E rdm s N) L r store into =
      genericResize W N (formatNeon rdm s N) L r store into :=
  resizeOn_eq hM p W (by omega) (poolFree_neon rdm s hN) L r store into

/-- **C205**, 16 bit. -/
theorem C205_threads_neon_u16 (M : Machine) (hM : ∀ n, (M.pool n).Valid) (p : Policy) (W N : ℕ) (hN : 1 ≤ N)
    (half : Bool) (L : Lib) (r : ResamplingFunction) (store into : Image ℕ) :
    resizeOn M p W N (fun E => formatU16NeonOn E half N) L r store into =
      genericResize W N (formatU16Neon half N) L r store into :=
  resizeOn_eq hM p W hN (poolFree_u16Neon half N) L r store into

/-- **C205**, `f32`, in every arithmetic. -/
theorem C205_threads_neon_f32 {A : Type} (M : Machine) (hM : ∀ n, (M.pool n).Valid) (p : Policy) (W N : ℕ) (hN : 1 ≤ N)
    (o : VecOps A) (L : Lib) (r : ResamplingFunction) (store into : Image A) :
    resizeOn M p W N (fun E => formatF32NeonOn E o N) L r store into =
      genericResize W N (formatF32Neon o N) L r store into :=
  resizeOn_eq hM p W hN (poolFree_f32Neon o N) L r store into

/-- **C205**, packed 10 bit. -/
theorem C205_threads_neon_ar30 (M : Machine) (hM : ∀ n, (M.pool n).Valid) (p : Policy) (rdm : Bool) (s : Workload)
    (W : ℕ) (t : Rgb30) (o : Ar30Order) (L : Lib) (r : ResamplingFunction) (src dst : Image ℕ) :
    resize30NeonUnder M p rdm s W t o L r src dst = resize30Neon rdm s W t o L r src dst :=
  resize30NeonOn_eq (fun _ hP => poolFor_valid hM hP) L r src dst

/-! ### C206, C207: with alpha -/

/-- **C206**, RGBA8 on x86. -/
theorem C206_threads_alpha_x86_u8 (M : Machine) (hM : ∀ n, (M.pool n).Valid) (p : Policy) (W : ℕ) (cpu : Cpu)
    (s : Workload) (rcp : ℚ → ℚ) (L : Lib) (r : ResamplingFunction) (store into : Image ℕ) (requested : Bool) :
    resizeAlphaOn M p W (fun E => formatX86On E cpu s 4) (fun E => alphaX86U8On E cpu rcp) L r store into requested =
      genericResizeWithAlpha W 4 (formatX86 cpu s 4) (alphaX86U8 cpu rcp) L r store into requested :=
  resizeAlphaOn_eq hM p W (poolFree_x86 cpu s (by omega)) (alphaPoolFree_x86U8 cpu rcp) L r store into requested

/-- **C206**, RGBA16 on x86; the global pool `G` of rayon is one of the pools involved. -/
theorem C206_threads_alpha_x86_u16 (M : Machine) (hM : ∀ n, (M.pool n).Valid) {G : Pool} (hG : G.Valid) (p : Policy)
    (W : ℕ) (cpu : Cpu) (fma fused : Bool) (rcp : ℚ → ℚ) (L : Lib) (r : ResamplingFunction) (store into : Image ℕ)
    (requested : Bool) :
    resizeAlphaOn M p W (fun E => formatU16X86On E cpu fma fused 4) (fun E => alphaX86U16On G E cpu fma rcp) L r store
        into requested =
      genericResizeWithAlpha W 4 (formatU16X86 cpu fma fused 4) (alphaX86U16 cpu fma rcp) L r store into requested :=
  resizeAlphaOn_eq hM p W (poolFree_u16X86 cpu fma fused 4) (alphaPoolFree_x86U16 hG cpu fma rcp) L r store into requested

/-- **C206**, RGBA `f32` on x86. -/
theorem C206_threads_alpha_x86_f32 (M : Machine) (hM : ∀ n, (M.pool n).Valid) (p : Policy) (W : ℕ) (cpu : Cpu)
    (fma fused : Bool) (o : VecOps ℚ) (bits : ℚ → ℕ) (L : Lib) (r : ResamplingFunction) (store into : Image ℚ)
    (requested : Bool) :
    resizeAlphaOn M p W (fun E => formatF32X86On E cpu fma fused o 4) (fun E => alphaX86F32On E cpu bits) L r store into
        requested =
      genericResizeWithAlpha W 4 (formatF32X86 cpu fma fused o 4) (alphaX86F32 cpu bits) L r store into requested :=
  resizeAlphaOn_eq hM p W (poolFree_f32X86 cpu fma fused o 4) (alphaPoolFree_x86F32 cpu bits) L r store into requested

/-- **C207**, RGBA8 on AArch64. -/
theorem C207_threads_alpha_neon_u8 (M : Machine) (hM : ∀ n, (M.pool n).Valid) (p : Policy) (W : ℕ) (rdm : Bool)
    (s : Workload) (L : Lib) (r : ResamplingFunction) (store into : Image ℕ) (requested : Bool) :
    resizeAlphaOn M p W (fun E => formatNeonOn E rdm s 4) alphaNeonU8On L r store into requested =
      genericResizeWithAlpha W 4 (formatNeon rdm s 4) alphaNeonU8 L r store into requested :=
  resizeAlphaOn_eq hM p W (poolFree_neon rdm s (by omega)) alphaPoolFree_neonU8 L r store into requested

/-- **C207**, RGBA16 on AArch64. -/
theorem C207_threads_alpha_neon_u16 (M : Machine) (hM : ∀ n, (M.pool n).Valid) (p : Policy) (W : ℕ)
    (half fp16 fp16' : Bool) (L : Lib) (r : ResamplingFunction) (store into : Image ℕ) (requested : Bool) :
    resizeAlphaOn M p W (fun E => formatU16NeonOn E half 4) (fun E => alphaNeonU16On E fp16 fp16') L r store into
        requested =
      genericResizeWithAlpha W 4 (formatU16Neon half 4) (alphaNeonU16 fp16 fp16') L r store into requested :=
  resizeAlphaOn_eq hM p W (poolFree_u16Neon half 4) (alphaPoolFree_neonU16 fp16 fp16') L r store into requested

/-- **C207**, RGBA `f32` on AArch64. -/
theorem C207_threads_alpha_neon_f32 (M : Machine) (hM : ∀ n, (M.pool n).Valid) (p : Policy) (W : ℕ) (o : VecOps ℚ)
    (bits : ℚ → ℕ) (L : Lib) (r : ResamplingFunction) (store into : Image ℚ) (requested : Bool) :
    resizeAlphaOn M p W (fun E => formatF32NeonOn E o 4) (fun E => alphaNeonF32On E bits) L r store into requested =
      genericResizeWithAlpha W 4 (formatF32Neon o 4) (alphaNeonF32 bits) L r store into requested :=
  resizeAlphaOn_eq hM p W (poolFree_f32Neon o 4) (alphaPoolFree_neonF32 bits) L r store into requested

/-- A call that goes through pools, and does something: the demo image of C136 on a machine with eight threads under
`Fixed(3)`. -/
example : ∃ M : Machine, ∃ G : Pool, (∀ n, (M.pool n).Valid) ∧ G.Valid ∧ (M.poolFor (.fixed 3) 2 3).isSome ∧
    ∃ out, resizeAlphaOn M (.fixed 3) (2 ^ 64) (fun E => formatU16X86On E ⟨true, false⟩ true true 4)
      (fun E => alphaX86U16On G E ⟨true, false⟩ true fun n => 1 / n) demoLib .bilinear (Demo.usrc 10) (Demo.udst 10) true =
        some (.ok (), out) := by
  refine ⟨⟨8, fun _ _ => true, fun _ => seqPool⟩, seqPool, fun _ => seqPool_valid, seqPool_valid, rfl, ?_⟩
  obtain ⟨out, _, h, _⟩ := C136_alpha_same_u16 (cpu := ⟨true, false⟩) (fma := true) (fused := true)
    (rcp := fun n => 1 / n) (L := demoLib) (Or.inr rfl) Demo.ucall10 rfl (by decide +kernel)
  exact ⟨out, by rw [C206_threads_alpha_x86_u16 _ (fun _ => seqPool_valid) seqPool_valid]; exact h⟩

/-! ### C208: `Single` and the threads of the process -/

/-- **C208**, partial. Under `ThreadingPolicy::Single` an RGBA16 resize on x86 is the sequential code whatever the
pools of the process do (no validity is assumed: they may be unable to start a thread), except where SSE4.1 is the
best instruction set and premultiplication is requested. (No other operation mentions the global pool: in the models of
all other formats it does not occur.) -/
theorem C208_single_needs_no_threads_partial (M : Machine) (G : Pool) (W : ℕ) (cpu : Cpu) (fma fused : Bool)
    (rcp : ℚ → ℚ) (L : Lib) (r : ResamplingFunction) (store into : Image ℕ) (requested : Bool)
    (h : cpu.avx2 = true ∨ cpu.sse41 = false ∨ requested = false) :
    resizeAlphaOn M .single W (fun E => formatU16X86On E cpu fma fused 4) (fun E => alphaX86U16On G E cpu fma rcp) L r
        store into requested =
      genericResizeWithAlpha W 4 (formatU16X86 cpu fma fused 4) (alphaX86U16 cpu fma rcp) L r store into requested := by
  have h0 : M.poolFor .single into.width into.height = none := by simp [Machine.poolFor, Policy.getPool]
  unfold resizeAlphaOn
  rw [h0]
  dsimp only
  rw [(poolFree_u16X86 cpu fma fused 4).none]
  by_cases hq : requested = false
  · subst hq
    unfold genericResizeWithAlpha
    simp [premultiplied]
  · have hA : alphaX86U16On G none cpu fma rcp = alphaX86U16 cpu fma rcp := by
      unfold alphaX86U16On alphaX86U16
      congr 1
      funext img
      by_cases ha : cpu.avx2 = true
      · simp only [ha, if_true]; rfl
      · have hs : cpu.sse41 = false := by tauto
        simp only [ha, hs, if_false, Bool.false_eq_true]; rfl
    rw [hA]

/-- A global pool that cannot run anything: rayon panics when its global pool cannot be built. -/
def deadPool : Pool := ⟨fun _ _ _ _ => none⟩

/-- **C208 fails** on SSE4.1 without AVX2: in a process that cannot start rayon's global pool, `Single` panics in an
RGBA16 resize with alpha, and in a process that can the same call succeeds. -/
theorem C208_violated : ∃ store into : Image ℕ, ∀ M : Machine,
    resizeAlphaOn M .single (2 ^ 64) (fun E => formatU16X86On E ⟨true, false⟩ true true 4)
      (fun E => alphaX86U16On deadPool E ⟨true, false⟩ true fun n => 1 / n) demoLib .bilinear store into true = none ∧
    ∀ G : Pool, G.Valid → ∃ out,
      resizeAlphaOn M .single (2 ^ 64) (fun E => formatU16X86On E ⟨true, false⟩ true true 4)
        (fun E => alphaX86U16On G E ⟨true, false⟩ true fun n => 1 / n) demoLib .bilinear store into true =
          some (.ok (), out) := by
  refine ⟨Demo.usrc 10, Demo.udst 10, fun M => ?_⟩
  have h0 : ∀ w h, M.poolFor .single w h = none := fun w h => by simp [Machine.poolFor, Policy.getPool]
  obtain ⟨out, _, h, _⟩ := C136_alpha_same_u16 (cpu := ⟨true, false⟩) (fma := true) (fused := true)
    (rcp := fun n => 1 / n) (L := demoLib) (Or.inr rfl) Demo.ucall10 rfl (by decide +kernel)
  have hF := poolFree_u16X86 ⟨true, false⟩ true true 4
  constructor
  · unfold resizeAlphaOn
    rw [h0]
    dsimp only
    rw [hF.none]
    unfold genericResizeWithAlpha
    have hc := Demo.ucall10.checked
    rw [show (formatU16X86 ⟨true, false⟩ true true 4).shouldHaveBitDepth = true from rfl, hc]
    dsimp only
    rw [if_neg (by decide), if_neg Demo.ucall10.filter]
    have hu : ∀ d, (alphaX86U16On deadPool none ⟨true, false⟩ true fun n => 1 / n).unpremultiply d = none := fun d => rfl
    simp only [hu, if_true, Option.bind_eq_bind, Option.bind_none, Option.bind_fun_none]
  · intro G hG
    refine ⟨out, ?_⟩
    unfold resizeAlphaOn
    rw [h0]
    dsimp only
    rw [hF.none, genericResizeWithAlpha_agree hF.geometry (alphaPoolFree_x86U16 hG _ _ _).none]
    exact h

/-- The hypotheses of the partial theorem on an AVX2 machine, with a dead global pool. -/
example (M : Machine) : ∃ out, resizeAlphaOn M .single (2 ^ 64) (fun E => formatU16X86On E ⟨true, true⟩ true true 4)
    (fun E => alphaX86U16On deadPool E ⟨true, true⟩ true fun n => 1 / n) demoLib .bilinear (Demo.usrc 10) (Demo.udst 10)
      true = some (.ok (), out) := by
  obtain ⟨out, _, h, _⟩ := C136_alpha_same_u16 (cpu := ⟨true, true⟩) (fma := true) (fused := true)
    (rcp := fun n => 1 / n) (L := demoLib) (Or.inl rfl) Demo.ucall10 rfl (by decide +kernel)
  exact ⟨out, by rw [C208_single_needs_no_threads_partial _ _ _ _ _ _ _ _ _ _ _ _ (Or.inl rfl)]; exact h⟩

/-! ### packed 10 bit: copies and nearest neighbour -/

/-- Equal sizes and nearest neighbour do not touch the vector code: the call on x86 is the portable call. -/
theorem C209_ar30_copy_nearest_x86 (cpu : Cpu) (W : ℕ) (t : Rgb30) (o : Ar30Order) (L : Lib) (r : ResamplingFunction)
    (src dst : Image ℕ) (h : (src.width = dst.width ∧ src.height = dst.height) ∨ r = .nearest) :
    resize30X86 cpu W t o L r src dst = resize30 W ⟨.little, t, o⟩ L r src dst := by
  unfold resize30X86 resize30
  cases check30 W src dst with
  | error e => rfl
  | ok u =>
    dsimp only
    by_cases h1 : src.width = dst.width ∧ src.height = dst.height
    · rw [if_pos h1, if_pos h1]
    · rw [if_neg h1, if_neg h1, if_pos (h.resolve_left h1), if_pos (h.resolve_left h1)]

/-- The same on AArch64. -/
theorem C209_ar30_copy_nearest_neon (rdm : Bool) (s : Workload) (W : ℕ) (t : Rgb30) (o : Ar30Order) (L : Lib)
    (r : ResamplingFunction) (src dst : Image ℕ)
    (h : (src.width = dst.width ∧ src.height = dst.height) ∨ r = .nearest) :
    resize30Neon rdm s W t o L r src dst = resize30 W ⟨.little, t, o⟩ L r src dst := by
  unfold resize30Neon resize30
  cases check30 W src dst with
  | error e => rfl
  | ok u =>
    dsimp only
    by_cases h1 : src.width = dst.width ∧ src.height = dst.height
    · rw [if_pos h1, if_pos h1]
    · rw [if_neg h1, if_neg h1, if_pos (h.resolve_left h1), if_pos (h.resolve_left h1)]

/-- So the defects of C41 are there too: an accepted Nearest resize to fewer than four rows reports success and writes
nothing, on both targets. -/
theorem C209_nearest_unwritten (cpu : Cpu) (rdm : Bool) (s : Workload) (t : Rgb30) (o : Ar30Order) {W : ℕ} {L : Lib}
    {src dst : Image ℕ} (hc : check30 W src dst = .ok ())
    (hsz : ¬ (src.width = dst.width ∧ src.height = dst.height)) (h4 : dst.height < 4) :
    resize30X86 cpu W t o L .nearest src dst = some (.ok (), dst.buffer) ∧
    resize30Neon rdm s W t o L .nearest src dst = some (.ok (), dst.buffer) :=
  ⟨(C209_ar30_copy_nearest_x86 cpu W t o L .nearest src dst (Or.inr rfl)).trans
      (C41_nearest_unwritten _ hc hsz h4),
    (C209_ar30_copy_nearest_neon rdm s W t o L .nearest src dst (Or.inr rfl)).trans
      (C41_nearest_unwritten _ hc hsz h4)⟩

example : check30 (2 ^ 64) ⟨List.range 8, 4, 2, 1, 8, 0⟩ ⟨List.replicate 12 77, 4, 3, 1, 12, 0⟩ = .ok () := by
  decide +kernel

/-- Equal sizes and strides: the copy. -/
example : resize30Neon true .preferSpeed (2 ^ 64) .ar30 .host demoLib .bilinear ⟨List.range 8, 4, 2, 1, 8, 0⟩
    ⟨List.replicate 8 77, 4, 2, 1, 8, 0⟩ = some (.ok (), List.range 8) := by
  rw [C209_ar30_copy_nearest_neon (h := Or.inl (by decide))]
  decide +kernel

end PicScale
