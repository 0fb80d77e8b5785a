import Verif.Model.SchedVector
import Verif.Lemmas.SchedNeon
import Verif.Lemmas.SchedX86W
import Verif.Lemmas.Sched
import Verif.Lemmas.NeonAlpha
import Verif.Lemmas.NeonAlphaU16
import Verif.Lemmas.AlphaX86
import Verif.Lemmas.AlphaX86U16
import Verif.Lemmas.AlphaX86F32
import Verif.Props.NeonAlphaF32

/-! The two arms of every vector pass agree, for every valid pool. -/

namespace PicScale

variable {S A : Type}

/-! ### passes -/

theorem horizontalOn_eq {E : Pool} (hE : E.Valid) {N : ℕ} {src dst : Image S} (hd : 0 < dst.strideOf N)
    {f4 : List S → ℕ → List S → ℕ → Option (List S)} {h1 : List S → List S → Option (List S)}
    (l4 : ∀ s ss d ds, Post (f4 s ss d ds) (fun r => r.length = d.length))
    (l1 : ∀ s d, Post (h1 s d) (fun r => r.length = d.length)) :
    horizontalOn (some E) N src dst (some f4) h1 = horizontalOn none N src dst (some f4) h1 := by
  unfold horizontalOn
  exact horizontalDispatchPar_eq hE hd (fun f hf => by obtain rfl := Option.some.inj hf; exact l4) l1

theorem verticalOn_eq {W : Type} {E : Pool} (hE : E.Valid) {N : ℕ} {src dst : Image S} (hd : 0 < dst.strideOf N)
    {bounds : List Bounds} {al : ℕ} {weights : List W}
    {handler : Bounds → List S → List S → ℕ → List W → Option (List S)}
    (lh : ∀ b s d ss w, Post (handler b s d ss w) (fun r => r.length = d.length)) :
    verticalOn (some E) N src dst bounds al weights handler = verticalOn none N src dst bounds al weights handler :=
  verticalDispatchPar_eq hE hd lh

theorem horizontalOn_none_geometry {N : ℕ} {src dst : Image S} {h4 : Option (List S → ℕ → List S → ℕ → Option (List S))}
    {h1 : List S → List S → Option (List S)} :
    Post (horizontalOn none N src dst h4 h1) (fun d => d.stride = dst.stride ∧ d.width = dst.width) :=
  horizontalDispatch_geometry

theorem verticalOn_none_geometry {W : Type} {N : ℕ} {src dst : Image S} {bounds : List Bounds} {al : ℕ}
    {weights : List W} {handler : Bounds → List S → List S → ℕ → List W → Option (List S)} :
    Post (verticalOn none N src dst bounds al weights handler)
      (fun d => d.stride = dst.stride ∧ d.width = dst.width) :=
  verticalDispatch_geometry

/-! ### formats -/

/-- A format whose result does not depend on the pool: without a pool it is `G`, and every valid pool gives the
same. -/
structure PoolFree (N : ℕ) (F : Option Pool → Format S) (G : Format S) : Prop where
  none : F none = G
  some : ∀ E : Pool, E.Valid → Agree N (F (some E)) G
  geometry : Geometry G

theorem poolFree_x86 (cpu : Cpu) (s : Workload) {N : ℕ} (hN : N = 1 ∨ N = 2 ∨ N = 3 ∨ N = 4) :
    PoolFree N (fun E => formatX86On E cpu s N) (formatX86 cpu s N) := by
  have h0 : formatX86On .none cpu s N = formatX86 cpu s N := by
    unfold formatX86On formatX86 horizontalX86On horizontalX86 verticalX86On verticalX86
    rfl
  refine ⟨h0, fun E hE => ⟨rfl, rfl, fun src dst fw hd => ?_, fun src dst fw hd => ?_⟩, ?_⟩
  · rw [← h0]
    simp only [formatX86On, verticalX86On]
    rw [verticalOn_eq hE hd fun _ _ _ _ _ => vkernel_len]
  · rw [← h0]
    simp only [formatX86On, horizontalX86On]
    split
    · split
      · exact horizontalOn_eq hE hd (fun _ _ _ _ => rows4Fixed_len) fun _ _ => rowFixed_len
      · next h hk =>
        exact horizontalOn_eq hE hd (fun s _ _ _ => simdRows4_len (selectH_len hN hk s)) fun s _ =>
          simdRow_len (selectH_len hN hk s)
    · rfl
  · rw [← h0]
    refine ⟨fun _ _ _ => ?_, fun _ _ _ => ?_⟩
    · simp only [formatX86On, verticalX86On]
      exact Post.ite verticalOn_none_geometry Post.nothing
    · simp only [formatX86On, horizontalX86On]
      refine Post.ite ?_ Post.nothing
      split <;> exact horizontalOn_none_geometry

theorem poolFree_u16X86 (cpu : Cpu) (fma fused : Bool) (N : ℕ) :
    PoolFree N (fun E => formatU16X86On E cpu fma fused N) (formatU16X86 cpu fma fused N) := by
  have h0 : formatU16X86On .none cpu fma fused N = formatU16X86 cpu fma fused N := rfl
  refine ⟨h0, fun E hE => ⟨rfl, rfl, fun src dst fw hd => ?_, fun src dst fw hd => ?_⟩, ?_⟩
  · rw [← h0]
    simp only [formatU16X86On]
    rw [verticalOn_eq hE hd fun _ _ _ _ _ => floatColumnX86_len, verticalOn_eq hE hd fun _ _ _ _ _ => fixedColumnX86_len]
  · rw [← h0]
    simp only [formatU16X86On]
    rw [horizontalOn_eq hE hd (fun _ _ _ _ => floatRows4X86_len) fun _ _ => floatRowX86_len,
      horizontalOn_eq hE hd (fun _ _ _ _ => fixedRows4X86_len) fun _ _ => fixedRowX86_len]
  · rw [← h0]
    exact ⟨fun _ _ _ => Post.ite verticalOn_none_geometry verticalOn_none_geometry,
      fun _ _ _ => Post.ite horizontalOn_none_geometry horizontalOn_none_geometry⟩

theorem poolFree_f32X86 (cpu : Cpu) (fma fused : Bool) (o : VecOps A) (N : ℕ) :
    PoolFree N (fun E => formatF32X86On E cpu fma fused o N) (formatF32X86 cpu fma fused o N) := by
  have h0 : formatF32X86On .none cpu fma fused o N = formatF32X86 cpu fma fused o N := rfl
  refine ⟨h0, fun E hE => ⟨rfl, rfl, fun src dst fw hd => ?_, fun src dst fw hd => ?_⟩, ?_⟩
  · exact verticalOn_eq hE hd fun _ _ _ _ _ => columnF32X86_len
  · exact horizontalOn_eq hE hd (fun _ _ _ _ => rows4F32X86_len) fun _ _ => rowF32X86_len
  · exact ⟨fun _ _ _ => verticalDispatch_geometry, fun _ _ _ => by
      simp only [formatF32X86]; exact horizontalDispatch_geometry⟩

theorem poolFree_neon (rdm : Bool) (s : Workload) {N : ℕ} (hN : N = 1 ∨ N = 2 ∨ N = 3 ∨ N = 4) :
    PoolFree N (fun E => formatNeonOn E rdm s N) (formatNeon rdm s N) := by
  have h0 : formatNeonOn .none rdm s N = formatNeon rdm s N := by
    unfold formatNeonOn formatNeon horizontalNeon verticalNeon
    rfl
  refine ⟨h0, fun E hE => ⟨rfl, rfl, fun src dst fw hd => ?_, fun src dst fw hd => ?_⟩, ?_⟩
  · exact verticalOn_eq hE hd fun _ _ _ _ _ => neonV_len
  · rw [← h0]
    simp only [formatNeonOn]
    split
    · exact horizontalOn_eq hE hd (fun _ _ _ _ => rows4Fixed_len) fun _ _ => rowFixed_len
    · next h hk =>
      exact horizontalOn_eq hE hd (fun s _ _ _ => simdRows4_len (neonH_len hN hk s)) fun s _ =>
        simdRow_len (neonH_len hN hk s)
  · rw [← h0]
    refine ⟨fun _ _ _ => verticalOn_none_geometry, fun _ _ _ => ?_⟩
    simp only [formatNeonOn]
    split <;> exact horizontalOn_none_geometry

theorem poolFree_u16Neon (half : Bool) (N : ℕ) :
    PoolFree N (fun E => formatU16NeonOn E half N) (formatU16Neon half N) := by
  have h0 : formatU16NeonOn .none half N = formatU16Neon half N := rfl
  refine ⟨h0, fun E hE => ⟨rfl, rfl, fun src dst fw hd => ?_, fun src dst fw hd => ?_⟩, ?_⟩
  · rw [← h0]
    simp only [formatU16NeonOn]
    rw [verticalOn_eq hE hd fun _ _ _ _ _ => neonColumnF32_len, verticalOn_eq hE hd fun _ _ _ _ _ => neonColumnHalf_len,
      verticalOn_eq hE hd fun _ _ _ _ _ => neonColumnLb_len]
  · rw [← h0]
    simp only [formatU16NeonOn]
    rw [horizontalOn_eq hE hd (fun _ _ _ _ => rows4Float_len) fun _ _ => rowFloat_len,
      horizontalOn_eq hE hd (fun _ _ _ _ => fixedRows4Neon_len) fun _ _ => fixedRowNeon_len]
  · rw [← h0]
    exact ⟨fun _ _ _ => Post.ite verticalOn_none_geometry (Post.ite verticalOn_none_geometry verticalOn_none_geometry),
      fun _ _ _ => Post.ite horizontalOn_none_geometry horizontalOn_none_geometry⟩

theorem poolFree_f32Neon (o : VecOps A) (N : ℕ) :
    PoolFree N (fun E => formatF32NeonOn E o N) (formatF32Neon o N) := by
  refine ⟨rfl, fun E hE => ⟨rfl, rfl, fun src dst fw hd => ?_, fun src dst fw hd => ?_⟩, ?_⟩
  · exact verticalOn_eq hE hd fun _ _ _ _ _ => neonColumnF_len
  · exact horizontalOn_eq hE hd (fun _ _ _ _ => rows4F32Neon_len) fun _ _ => rowF32Neon_len
  · exact ⟨fun _ _ _ => verticalDispatch_geometry, fun _ _ _ => by
      simp only [formatF32Neon]; exact horizontalDispatch_geometry⟩

/-! ### alpha -/

/-- Rows of whole pixels keep their length. -/
def RowLen2 (row : List S → List S → Option (List S)) : Prop :=
  ∀ w d s, d.length = w * 4 → s.length = w * 4 → Post (row d s) (fun r => r.length = w * 4)

/-- In place. -/
def RowLen1 (row : List S → Option (List S)) : Prop :=
  ∀ w l, l.length = w * 4 → Post (row l) (fun r => r.length = w * 4)

theorem RowOK.len {row : List S → List S → Option (List S)} {col : S → S → S} {alp : S → S} {d0 : S}
    (h : RowOK row col alp d0) : RowLen2 row := by
  intro w d s hd hs r hr
  obtain ⟨r', h1, h2, _⟩ := h w d s hd hs
  rw [h1] at hr
  obtain rfl := Option.some.inj hr
  exact h2

theorem RowXA.len {row : List S → List S → Option (List S)} {col : ℕ → ℕ → S → S → S} {alp : ℕ → ℕ → S → S} {d0 : S}
    (h : RowXA row col alp d0) : RowLen2 row := by
  intro w d s hd hs r hr
  obtain ⟨r', h1, h2, _⟩ := h w d s hd hs
  rw [h1] at hr
  obtain rfl := Option.some.inj hr
  exact h2

theorem RowInPlaceOK.len {row : List S → Option (List S)} {col : S → S → S} {alp : S → S} {d0 : S}
    (h : RowInPlaceOK row col alp d0) : RowLen1 row := by
  intro w l hl r hr
  obtain ⟨r', h1, h2, _⟩ := h w l hl
  rw [h1] at hr
  obtain rfl := Option.some.inj hr
  exact h2

theorem RowInPlaceX.len {row : List S → Option (List S)} {col : ℕ → ℕ → S → S → S} {alp : S → S} {d0 : S}
    (h : RowInPlaceX row col alp d0) : RowLen1 row := by
  intro w l hl r hr
  obtain ⟨r', h1, h2, _⟩ := h w l hl
  rw [h1] at hr
  obtain rfl := Option.some.inj hr
  exact h2

theorem alphaRow_rowLen {op : List S → Option (List S)} (hop : PixelOp4 op) : RowLen2 (alphaRow op) :=
  fun _ _ _ hd _ => (alphaRow_len hop).mono fun _ h => h.trans hd

theorem alphaRowInPlace_rowLen {op : List S → Option (List S)} (hop : PixelOp4 op) : RowLen1 (alphaRowInPlace op) :=
  fun _ _ hl => (alphaRowInPlace_len hop).mono fun _ h => h.trans hl

theorem slice0_len {l s : List S} {k : ℕ} (h : slice? l 0 k = some s) : s.length = k := by
  unfold slice? at h
  split at h
  · next hk =>
    obtain rfl := Option.some.inj h
    simp
    omega
  · simp at h

theorem premultiplyOn_eq {E : Pool} (hE : E.Valid) {row : List S → List S → Option (List S)} (hrow : RowLen2 row)
    {src dst : Image S} (hd : 0 < dst.strideOf 4) :
    premultiplyOn (some E) row src dst = premultiplyOn none row src dst := by
  unfold premultiplyOn premultiplyImageWith alphaRowsWith
  dsimp only
  rw [hE.run_eq hd]
  intro c x r hc hr
  have : Post (do
      let d ← slice? c 0 (src.width * 4)
      let s ← slice? x 0 (src.width * 4)
      let r ← row d s
      some (r ++ c.drop (src.width * 4))) (fun r => r.length = c.length) := by
    refine Post.bind fun d hd => Post.bind fun s hs =>
      Post.bind' (hrow _ _ _ (slice0_len hd) (slice0_len hs)) fun q hq => Post.pure (slice_prefix_len hd ?_)
    rw [hq, slice0_len hd]
  rw [this r hr, hc]

theorem unpremultiplyPool_eq {E : Pool} (hE : E.Valid) {row : List S → Option (List S)} (hrow : RowLen1 row)
    {img : Image S} (hd : 0 < img.strideOf 4) :
    unpremultiplyPool E row img = unpremultiplyImageWith row img := by
  unfold unpremultiplyPool unpremultiplyImageWith alphaRowsInPlaceWith
  rw [hE.run_eq hd]
  intro c x r hc hr
  have : Post (do
      let d ← slice? c 0 (img.width * 4)
      let r ← row d
      some (r ++ c.drop (img.width * 4))) (fun r => r.length = c.length) := by
    refine Post.bind fun d hd => Post.bind' (hrow _ _ (slice0_len hd)) fun q hq => Post.pure (slice_prefix_len hd ?_)
    rw [hq, slice0_len hd]
  rw [this r hr, hc]

/-- Alpha handling whose result does not depend on the pool. -/
structure AlphaPoolFree (A : Option Pool → AlphaOps S) (B : AlphaOps S) : Prop where
  none : AgreeAlpha (A none) B
  some : ∀ E : Pool, E.Valid → AgreeAlpha (A (some E)) B

theorem premulLane16_fn (b : Prop) [Decidable b] {f g : Reg → Reg → Reg} {F G : ℕ → ℕ → ℤ} (hf : LaneFn f F)
    (hg : LaneFn g G) : ∃ H, LaneFn (if b then f else g) H := by
  by_cases h : b
  · exact ⟨F, by rw [if_pos h]; exact hf⟩
  · exact ⟨G, by rw [if_neg h]; exact hg⟩

theorem avxPremulRow16_rowLen (fma : Bool) (d : ℕ) : RowLen2 (avxPremulRow16 fma d) := by
  obtain ⟨_, hl⟩ := premulLane16_fn (d = 10 ∨ d = 12 ∨ d = 16) (premulLanesInt_lane (divExponent d))
    (premulLanesAvx_lane fma _)
  exact (alphaChunks_ok (by norm_num) (by norm_num) (avxChunk16_pixelwise hl)).len

theorem ssePremulRow16_rowLen (d : ℕ) : RowLen2 (ssePremulRow16 d) := by
  obtain ⟨_, hl⟩ := premulLane16_fn (d = 10 ∨ d = 12 ∨ d = 16) (premulLanesInt_lane (divExponent d))
    (premulLanesSse_lane _)
  exact (alphaChunks_ok (by norm_num) (by norm_num) (sseChunk16_pixelwise hl)).len

theorem alphaPoolFree_x86U8 (cpu : Cpu) (rcp : ℚ → ℚ) :
    AlphaPoolFree (fun E => alphaX86U8On E cpu rcp) (alphaX86U8 cpu rcp) := by
  have h0 : alphaX86U8On .none cpu rcp = alphaX86U8 cpu rcp := rfl
  refine ⟨by rw [h0]; exact ⟨rfl, fun _ _ _ => rfl, fun _ _ => rfl⟩, fun E hE => ⟨rfl, fun src dst hd => ?_, fun img hd => ?_⟩⟩
  · rw [← h0]
    simp only [alphaX86U8On]
    split_ifs
    · exact premultiplyOn_eq hE (alphaChunks_ok (by norm_num) (by norm_num) avxPremulChunk_pixelwise).len hd
    · exact premultiplyOn_eq hE (alphaChunks_ok (by norm_num) (by norm_num) ssePremulChunk_pixelwise).len hd
    · exact premultiplyOn_eq hE (alphaRow_rowLen pixelOp_len) hd
  · rw [← h0]
    simp only [alphaX86U8On]
    split_ifs
    · exact unpremultiplyPool_eq hE (alphaChunksInPlace_ok (by norm_num) (by norm_num) (avxUnpremulChunk_pixelwise rcp)).len hd
    · exact unpremultiplyPool_eq hE (alphaChunksInPlace_ok (by norm_num) (by norm_num) (sseUnpremulChunk_pixelwise rcp)).len hd
    · exact unpremultiplyPool_eq hE (alphaRowInPlace_rowLen pixelOp_len) hd

theorem alphaPoolFree_x86U16 {G : Pool} (hG : G.Valid) (cpu : Cpu) (fma : Bool) (rcp : ℚ → ℚ) :
    AlphaPoolFree (fun E => alphaX86U16On G E cpu fma rcp) (alphaX86U16 cpu fma rcp) := by
  have hu : ∀ d, RowLen1 (sseUnpremulRow16 rcp d) := fun d =>
    (alphaChunksInPlace_ok (by norm_num) (by norm_num) (sseChunk16_pixelwise (unpremulLanes16Sse_lane rcp (2 ^ d - 1)))).len
  refine ⟨⟨rfl, fun src dst hd => ?_, fun img hd => ?_⟩, fun E hE => ⟨rfl, fun src dst hd => ?_, fun img hd => ?_⟩⟩
  · rfl
  · simp only [alphaX86U16On, alphaX86U16]
    split_ifs
    · rfl
    · exact unpremultiplyPool_eq hG (hu _) hd
    · rfl
  · simp only [alphaX86U16On, alphaX86U16]
    split_ifs
    · exact premultiplyOn_eq hE (avxPremulRow16_rowLen _ _) hd
    · exact premultiplyOn_eq hE (ssePremulRow16_rowLen _) hd
    · exact premultiplyOn_eq hE (alphaRow_rowLen pixelOp_len) hd
  · simp only [alphaX86U16On, alphaX86U16]
    split_ifs
    · exact unpremultiplyPool_eq hE (alphaChunksInPlace_ok (by norm_num) (by norm_num)
        (avxChunk16_pixelwise (unpremulLanes16Avx_lane fma rcp _))).len hd
    · exact unpremultiplyPool_eq hE (hu _) hd
    · exact unpremultiplyPool_eq hE (alphaRowInPlace_rowLen pixelOp_len) hd

theorem alphaPoolFree_x86F32 (cpu : Cpu) (bits : ℚ → ℕ) :
    AlphaPoolFree (fun E => alphaX86F32On E cpu bits) (alphaX86F32 cpu bits) := by
  have h0 : alphaX86F32On .none cpu bits = alphaX86F32 cpu bits := rfl
  refine ⟨by rw [h0]; exact ⟨rfl, fun _ _ _ => rfl, fun _ _ => rfl⟩, fun E hE => ⟨rfl, fun src dst hd => ?_, fun img hd => ?_⟩⟩
  · rw [← h0]
    simp only [alphaX86F32On]
    split_ifs
    · exact premultiplyOn_eq hE (premulRowF_ok (by norm_num) (by norm_num) (avxChunkF_pixelwise mulps_laneWise)).len hd
    · exact premultiplyOn_eq hE (premulRowF_ok (by norm_num) (by norm_num) (sseChunkF_pixelwise mulps_laneWise)).len hd
    · exact premultiplyOn_eq hE (alphaRow_rowLen pixelOp_len) hd
  · rw [← h0]
    simp only [alphaX86F32On]
    split_ifs
    · exact unpremultiplyPool_eq hE (unpremulRowF_ok (by norm_num) (by norm_num) (avxChunkF_pixelwise unpremulLanesF_laneWise)).len hd
    · exact unpremultiplyPool_eq hE (unpremulRowF_ok (by norm_num) (by norm_num) (sseChunkF_pixelwise unpremulLanesF_laneWise)).len hd
    · exact unpremultiplyPool_eq hE (alphaRowInPlace_rowLen pixelOp_len) hd

theorem alphaPoolFree_neonU8 : AlphaPoolFree alphaNeonU8On alphaNeonU8 :=
  ⟨⟨rfl, fun _ _ _ => rfl, fun _ _ => rfl⟩, fun _ hE => ⟨rfl, fun _ _ hd => premultiplyOn_eq hE premulRowNeon_ok.len hd,
    fun _ hd => unpremultiplyPool_eq hE unpremulRowNeon_ok.len hd⟩⟩

theorem alphaPoolFree_neonU16 (fp16 fp16' : Bool) :
    AlphaPoolFree (fun E => alphaNeonU16On E fp16 fp16') (alphaNeonU16 fp16 fp16') :=
  ⟨⟨rfl, fun _ _ _ => rfl, fun _ _ => rfl⟩,
    fun _ hE => ⟨rfl, fun _ _ hd => premultiplyOn_eq hE (premulRowNeon16_ok _ _).len hd,
    fun _ hd => unpremultiplyPool_eq hE (unpremulRowNeon16_ok _ _).len hd⟩⟩

theorem alphaPoolFree_neonF32 (bits : ℚ → ℕ) :
    AlphaPoolFree (fun E => alphaNeonF32On E bits) (alphaNeonF32 bits) :=
  ⟨⟨rfl, fun _ _ _ => rfl, fun _ _ => rfl⟩,
    fun _ hE => ⟨rfl, fun _ _ hd => premultiplyOn_eq hE
      (premulRowF_ok (P := 16) (by norm_num) (by norm_num) (planes_pixelwise mulNF_lane).pixelwiseF).len hd,
    fun _ hd => unpremultiplyPool_eq hE
      (unpremulRowF_ok (P := 16) (by norm_num) (by norm_num) (planes_pixelwise unpremulVecNF_lane).pixelwiseF).len hd⟩⟩

/-! ### the calls -/

theorem poolFor_valid {M : Machine} (hM : ∀ n, (M.pool n).Valid) {p : Policy} {w h : ℕ} {E : Pool}
    (hp : M.poolFor p w h = some E) : E.Valid := by
  unfold Machine.poolFor at hp
  cases hg : p.getPool M.avail (M.poolOk w h) w h with
  | none => simp [hg] at hp
  | some n =>
    simp only [hg, Option.map_some, Option.some.injEq] at hp
    rw [← hp]; exact hM n

theorem resizeOn_eq {M : Machine} (hM : ∀ n, (M.pool n).Valid) (p : Policy) (W : ℕ) {N : ℕ} (hN : 1 ≤ N)
    {F : Option Pool → Format S} {G : Format S} (h : PoolFree N F G) (L : Lib) (r : ResamplingFunction)
    (store into : Image S) : resizeOn M p W N F L r store into = genericResize W N G L r store into := by
  unfold resizeOn
  cases hp : M.poolFor p into.width into.height with
  | none => dsimp only; rw [h.none]
  | some E => exact genericResizePar_eq (poolFor_valid hM hp) hN (h.some E (poolFor_valid hM hp)) L r store into

theorem genericResizeWithAlpha_agree {W : ℕ} {F : Format S} {A B : AlphaOps S} (hg : Geometry F)
    (ha : AgreeAlpha A B) (L : Lib) (r : ResamplingFunction) (store into : Image S) (req : Bool) :
    genericResizeWithAlpha W 4 F A L r store into req = genericResizeWithAlpha W 4 F B L r store into req := by
  have hF : Agree 4 F F := ⟨rfl, rfl, fun _ _ _ _ => rfl, fun _ _ _ _ => rfl⟩
  have hA : AgreeAlpha A A := ⟨rfl, fun _ _ _ => rfl, fun _ _ => rfl⟩
  rw [← genericResizeWithAlphaPar_eq seqPool_valid hF hg ha L r store into req,
    genericResizeWithAlphaPar_eq seqPool_valid hF hg hA L r store into req]

theorem resizeAlphaOn_eq {M : Machine} (hM : ∀ n, (M.pool n).Valid) (p : Policy) (W : ℕ)
    {F : Option Pool → Format S} {G : Format S} (h : PoolFree 4 F G) {A : Option Pool → AlphaOps S} {B : AlphaOps S}
    (ha : AlphaPoolFree A B) (L : Lib) (r : ResamplingFunction) (store into : Image S) (req : Bool) :
    resizeAlphaOn M p W F A L r store into req = genericResizeWithAlpha W 4 G B L r store into req := by
  unfold resizeAlphaOn
  cases hp : M.poolFor p into.width into.height with
  | none =>
    dsimp only
    rw [h.none]
    exact genericResizeWithAlpha_agree h.geometry ha.none L r store into req
  | some E =>
    have hE : E.Valid := poolFor_valid hM hp
    exact genericResizeWithAlphaPar_eq hE (h.some E hE) h.geometry (ha.some E hE) L r store into req

/-! ### packed 10 bit -/

theorem nearestOn_eq {E : Option Pool} (hE : ∀ P, E = some P → P.Valid) {N : ℕ} {src : List S} {srcW srcH : ℕ}
    {dst : List S} {dstW dstH : ℕ} (h : 0 < dstW * N) :
    nearestOn E N src srcW srcH dst dstW dstH = resizeNearest F32.rnd N src srcW srcH dst dstW dstH := by
  cases E with
  | none => rfl
  | some P => exact resizeNearestPar_eq (hE P rfl) h

theorem horizontal30X86On_eq {E : Option Pool} (hE : ∀ P, E = some P → P.Valid) {cpu : Cpu} {t : Rgb30} {o : Ar30Order}
    {src dst : List ℕ} {ss ds : ℕ} (hd : 0 < ds) {fw : FilterWeights ℚ} :
    horizontal30X86On E cpu t o src ss fw dst ds = horizontal30X86 cpu t o src ss fw dst ds := by
  cases E with
  | none => rfl
  | some P =>
    unfold horizontal30X86On horizontal30X86 horizontal30
    dsimp only
    rw [horizontalOn_eq (hE P rfl) (image30_stride_pos hd) (fun _ _ _ _ => simdRows4_len ar30Rows4_len)
        fun _ _ => simdRow_len ar30Row_len,
      horizontalOn_eq (hE P rfl) (image30_stride_pos hd) (fun _ _ _ _ => rows4_30_len) fun _ _ => row30_len]
    rfl

theorem vertical30X86On_eq {E : Option Pool} (hE : ∀ P, E = some P → P.Valid) {cpu : Cpu} {t : Rgb30} {o : Ar30Order}
    {src dst : List ℕ} {ss ds w : ℕ} (hd : 0 < ds) {fw : FilterWeights ℚ} :
    vertical30X86On E cpu t o src ss fw dst ds w = vertical30X86 cpu t o src ss fw dst ds w := by
  have h0 : vertical30X86On .none cpu t o src ss fw dst ds w = vertical30X86 cpu t o src ss fw dst ds w := by
    unfold vertical30X86On vertical30X86 vertical30
    by_cases h : cpu.sse41 = true
    · simp only [h, if_true]; rfl
    · simp only [h]; rfl
  rw [← h0]
  cases E with
  | none => rfl
  | some P =>
    unfold vertical30X86On
    dsimp only
    rw [verticalOn_eq (hE P rfl) (image30_stride_pos hd) fun _ _ _ _ _ => Post.ite sseColumn30_len column30_len]

theorem horizontal30NeonOn_eq {E : Option Pool} (hE : ∀ P, E = some P → P.Valid) {rdm : Bool} {s : Workload} {t : Rgb30}
    {o : Ar30Order} {src dst : List ℕ} {ss ds : ℕ} (hd : 0 < ds) {fw : FilterWeights ℚ} :
    horizontal30NeonOn E rdm s t o src ss fw dst ds = horizontal30Neon rdm s t o src ss fw dst ds := by
  cases E with
  | none => rfl
  | some P =>
    unfold horizontal30NeonOn horizontal30Neon
    dsimp only
    rw [horizontalOn_eq (hE P rfl) (image30_stride_pos hd) (fun s' _ _ _ => simdRows4_len (by
        split
        · exact ar30Rdm_len
        · exact ar30Neon_len)) fun _ _ => simdRow_len ar30Neon_len]
    rfl

theorem vertical30NeonOn_eq {E : Option Pool} (hE : ∀ P, E = some P → P.Valid) {rdm : Bool} {s : Workload} {t : Rgb30}
    {o : Ar30Order} {src dst : List ℕ} {ss ds w : ℕ} (hd : 0 < ds) {fw : FilterWeights ℚ} :
    vertical30NeonOn E rdm s t o src ss fw dst ds w = vertical30Neon rdm s t o src ss fw dst ds w := by
  cases E with
  | none => rfl
  | some P =>
    unfold vertical30NeonOn vertical30Neon
    dsimp only
    rw [verticalOn_eq (hE P rfl) (image30_stride_pos hd) fun _ _ _ _ _ => Post.ite rdmColumn30_len neonColumn30_len]
    rfl

theorem check30_pos {W : ℕ} {src dst : Image ℕ} (hc : check30 W src dst = .ok ()) :
    0 < src.width ∧ 0 < src.stride ∧ 0 < dst.stride := by
  by_contra hcon
  unfold check30 at hc
  simp only [bind, Except.bind, throw, throwThe, MonadExceptOf.throw, pure, Except.pure] at hc
  split_ifs at hc
  omega

theorem resize30X86On_eq {E : Option Pool} (hE : ∀ P, E = some P → P.Valid) {cpu : Cpu} {W : ℕ} {t : Rgb30} {o : Ar30Order}
    (L : Lib) (r : ResamplingFunction) (src dst : Image ℕ) :
    resize30On E (vertical30X86On E cpu t o) (horizontal30X86On E cpu t o) W L r src dst =
      resize30X86 cpu W t o L r src dst := by
  unfold resize30On resize30X86
  cases hc : check30 W src dst with
  | error e => rfl
  | ok u =>
    have hpos := check30_pos hc
    dsimp only
    simp only [nearestOn_eq hE (show 0 < dst.stride * 4 by omega), vertical30X86On_eq hE hpos.2.1,
      vertical30X86On_eq hE (show 0 < src.width * 4 by omega), horizontal30X86On_eq hE hpos.2.2]

theorem resize30NeonOn_eq {E : Option Pool} (hE : ∀ P, E = some P → P.Valid) {rdm : Bool} {s : Workload} {W : ℕ}
    {t : Rgb30} {o : Ar30Order} (L : Lib) (r : ResamplingFunction) (src dst : Image ℕ) :
    resize30On E (vertical30NeonOn E rdm s t o) (horizontal30NeonOn E rdm s t o) W L r src dst =
      resize30Neon rdm s W t o L r src dst := by
  unfold resize30On resize30Neon
  cases hc : check30 W src dst with
  | error e => rfl
  | ok u =>
    have hpos := check30_pos hc
    dsimp only
    simp only [nearestOn_eq hE (show 0 < dst.stride * 4 by omega), vertical30NeonOn_eq hE hpos.2.1,
      vertical30NeonOn_eq hE (show 0 < src.width * 4 by omega), horizontal30NeonOn_eq hE hpos.2.2]

end PicScale
