import Verif.Lemmas.SchedF32
import Verif.Model.X86

/-!
Lengths for the x86 handlers of 8-bit images.
-/

namespace PicScale

theorem all_map_const {σ α : Type} {P : σ → Prop} {s : σ} (h : P s) {l : List α} : ∀ x ∈ l.map (fun _ => s), P x := by
  intro x hx
  obtain ⟨_, _, rfl⟩ := List.mem_map.mp hx
  exact h

/-! ### one register -/

section
variable {src : List ℕ} {w : List ℤ} {b : Bounds}

theorem l_rgbaSse4 (jx o : ℕ) (s : Reg) (h : R16 s) : Post (rgbaSse4 src w b jx o s) R16 := by
  unfold rgbaSse4; post_r16; r16
theorem l_rgbaSse2 (jx o : ℕ) (s : Reg) (h : R16 s) : Post (rgbaSse2 src w b jx o s) R16 := by
  unfold rgbaSse2; post_r16; r16
theorem l_rgbaSse1 (jx o : ℕ) (s : Reg) (h : R16 s) : Post (rgbaSse1 src w b jx o s) R16 := by
  unfold rgbaSse1; post_r16; r16
theorem r16_lbHdot4 {s v0 v1 a c d e : Reg} (hs : R16 s) (h0 : R16 v0) (h1 : R16 v1) (ha : R16 a) (hc : R16 c)
    (hd : R16 d) (he : R16 e) : R16 (lbHdot4 s v0 v1 a c d e) := by unfold lbHdot4; r16
theorem r16_lbHdot2 {s v a c : Reg} (hs : R16 s) (h0 : R16 v) (ha : R16 a) (hc : R16 c) : R16 (lbHdot2 s v a c) := by
  unfold lbHdot2; r16
theorem r16_lbHdot {s v a : Reg} (hs : R16 s) (h0 : R16 v) (ha : R16 a) : R16 (lbHdot s v a) := by
  unfold lbHdot; r16
theorem l_rgbaLb8 (jx o : ℕ) (s : Reg) (h : R16 s) : Post (rgbaLb8 src w b jx o s) R16 := by
  unfold rgbaLb8; post_r16; (apply r16_lbHdot4) <;> r16
theorem l_rgbaLb4 (jx o : ℕ) (s : Reg) (h : R16 s) : Post (rgbaLb4 src w b jx o s) R16 := by
  unfold rgbaLb4; post_r16; (apply r16_lbHdot2) <;> r16
theorem l_rgbaLb2 (jx o : ℕ) (s : Reg) (h : R16 s) : Post (rgbaLb2 src w b jx o s) R16 := by
  unfold rgbaLb2; post_r16; (apply r16_lbHdot) <;> r16
theorem l_rgbaLb1 (jx o : ℕ) (s : Reg) (h : R16 s) : Post (rgbaLb1 src w b jx o s) R16 := by
  unfold rgbaLb1; post_r16; r16
theorem l_rgbaAvxLb2 (jx o : ℕ) (s : Reg) (h : R16 s) : Post (rgbaAvxLb2 src w b jx o s) R16 := by
  unfold rgbaAvxLb2; post_r16; (apply r16_lbHdot) <;> r16
theorem l_rgbSse4 (jx o : ℕ) (s : Reg) (h : R16 s) : Post (rgbSse4 src w b jx o s) R16 := by
  unfold rgbSse4; post_r16; r16
theorem l_rgbSse2 (jx o : ℕ) (s : Reg) (h : R16 s) : Post (rgbSse2 src w b jx o s) R16 := by
  unfold rgbSse2; post_r16; r16
theorem l_rgbSse1 (jx o : ℕ) (s : Reg) (h : R16 s) : Post (rgbSse1 src w b jx o s) R16 := by
  unfold rgbSse1; post_r16; r16
theorem l_rgbAvx1 (jx o : ℕ) (s : Reg) (h : R16 s) : Post (rgbAvx1 src w b jx o s) R16 := by
  unfold rgbAvx1; post_r16; r16
theorem l_planeSse8 (jx o : ℕ) (s : Reg) (h : R16 s) : Post (planeSse8 src w b jx o s) R16 := by
  unfold planeSse8; post_r16; r16
theorem l_planeSse4 (jx o : ℕ) (s : Reg) (h : R16 s) : Post (planeSse4 src w b jx o s) R16 := by
  unfold planeSse4; post_r16; r16
theorem l_planeSse1 (jx o : ℕ) (s : Reg) (h : R16 s) : Post (planeSse1 src w b jx o s) R16 := by
  unfold planeSse1; post_r16; r16
theorem l_planeHrs16 (jx o : ℕ) (s : Reg) (h : R16 s) : Post (planeHrs16 src w b jx o s) R16 := by
  unfold planeHrs16; post_r16; r16
theorem l_planeHrs8 (jx o : ℕ) (s : Reg) (h : R16 s) : Post (planeHrs8 src w b jx o s) R16 := by
  unfold planeHrs8; post_r16; r16
theorem l_planeHrs4 (jx o : ℕ) (s : Reg) (h : R16 s) : Post (planeHrs4 src w b jx o s) R16 := by
  unfold planeHrs4; post_r16; r16
theorem l_planeHrs1 (jx o : ℕ) (s : Reg) (h : R16 s) : Post (planeHrs1 src w b jx o s) R16 := by
  unfold planeHrs1; post_r16; r16; rfl
theorem l_cbcrHrs8 (jx o : ℕ) (s : Reg) (h : R16 s) : Post (cbcrHrs8 src w b jx o s) R16 := by
  unfold cbcrHrs8; post_r16; r16
theorem l_cbcrHrs4 (jx o : ℕ) (s : Reg) (h : R16 s) : Post (cbcrHrs4 src w b jx o s) R16 := by
  unfold cbcrHrs4; post_r16; r16
theorem l_cbcrHrs2 (jx o : ℕ) (s : Reg) (h : R16 s) : Post (cbcrHrs2 src w b jx o s) R16 := by
  unfold cbcrHrs2; post_r16; r16
theorem l_cbcrHrs1 (jx o : ℕ) (s : Reg) (h : R16 s) : Post (cbcrHrs1 src w b jx o s) R16 := by
  unfold cbcrHrs1; post_r16; r16

/-! ### a pair of registers -/

/-- A 256-bit register. -/
def R32 (r : Reg × Reg) : Prop := R16 r.1 ∧ R16 r.2

theorem r32_permute50 {v : Reg} (h : R16 v) : R32 (permute50 v) := by
  unfold R16 at h; constructor <;> simp [R16, permute50, h]
theorem r32_shuffle8x2 {v : Reg × Reg} {m : List ℤ} (h : m.length = 16) : R32 (shuffle8x2 v m) :=
  ⟨r16_shuffle8 h, r16_shuffle8 h⟩
theorem r32_dot16x2 {a c d : Reg × Reg} (ha : R32 a) (hc : R32 c) (hd : R32 d) : R32 (dot16x2 a c d) :=
  ⟨r16_add32 ha.1 (r16_madd16 hc.1 hd.1), r16_add32 ha.2 (r16_madd16 hc.2 hd.2)⟩

theorem l_rgbaAvxLb8 (jx o : ℕ) (s : Reg × Reg) (h : R32 s) : Post (rgbaAvxLb8 src w b jx o s) R32 := by
  unfold rgbaAvxLb8
  post_r16
  exact ⟨r16_lbHdot2 h.1 (by assumption) (r16_setr16 rfl) (r16_setr16 rfl),
    r16_lbHdot2 h.2 (by assumption) (r16_setr16 rfl) (r16_setr16 rfl)⟩
theorem l_rgbaAvxLb4 (jx o : ℕ) (s : Reg × Reg) (h : R32 s) : Post (rgbaAvxLb4 src w b jx o s) R32 := by
  unfold rgbaAvxLb4
  post_r16
  next hv => exact ⟨r16_lbHdot h.1 (r32_permute50 hv).1 (r16_setr16 rfl),
    r16_lbHdot h.2 (r32_permute50 hv).2 (r16_setr16 rfl)⟩
theorem l_rgbAvx8 (jx o : ℕ) (s : Reg × Reg) (h : R32 s) : Post (rgbAvx8 src w b jx o s) R32 := by
  unfold rgbAvx8
  post_r16
  exact r32_dot16x2 (r32_dot16x2 h (r32_shuffle8x2 rfl) (r32_shuffle8x2 rfl)) (r32_shuffle8x2 rfl) (r32_shuffle8x2 rfl)
theorem l_rgbAvx4 (jx o : ℕ) (s : Reg × Reg) (h : R32 s) : Post (rgbAvx4 src w b jx o s) R32 := by
  unfold rgbAvx4
  post_r16
  exact r32_dot16x2 h (r32_shuffle8x2 rfl) (r32_shuffle8x2 rfl)

/-! ### finishers -/

theorem r16_compressI32 {s : Reg} (h : R16 s) : R16 (compressI32 s) := by unfold compressI32; dsimp only; r16
theorem take_len {s : Reg} (h : R16 s) {k : ℕ} (hk : k ≤ 16) : (s.take k).length = k := by
  unfold R16 at h; simp [h, hk]
theorem lbFinish_len {s : Reg} (h : R16 s) : (lbFinish s).length = 4 := by
  unfold lbFinish; dsimp only; exact take_len (by r16) (by omega)
theorem planeFinish_len {s : Reg} (h : R16 s) : (planeFinish s).length = 1 := by
  unfold planeFinish; dsimp only; exact take_len (by r16) (by omega)
theorem hrsFinish_len {s : Reg} (h : R16 s) : (hrsFinish s).length = 1 := by
  unfold hrsFinish; dsimp only; exact take_len (by r16) (by omega)
theorem cbcrFinish_len {s : Reg} (h : R16 s) : (cbcrFinish s).length = 2 := by
  unfold cbcrFinish; dsimp only; exact take_len (by r16) (by omega)

/-! ### handlers -/

theorem rgbaSse_len : HLen 4 (rgbaSse src) := by
  intro offs w b
  unfold rgbaSse
  exact Post.bind' (rowsLoop_post l_rgbaSse4 (all_map_const r16_set1epi32)) fun _ h1 =>
    Post.bind' (rowsLoop_post l_rgbaSse2 h1) fun _ h2 => Post.bind' (rowsLoop_post l_rgbaSse1 h2) fun _ h3 =>
    Post.pure (map_len (fun s hs => take_len (r16_compressI32 hs) (by omega)) h3)
theorem rgbSse_len : HLen 3 (rgbSse src) := by
  intro offs w b
  unfold rgbSse
  exact Post.bind' (rowsLoop_post l_rgbSse4 (all_map_const r16_set1epi32)) fun _ h1 =>
    Post.bind' (rowsLoop_post l_rgbSse2 h1) fun _ h2 => Post.bind' (rowsLoop_post l_rgbSse1 h2) fun _ h3 =>
    Post.pure (map_len (fun s hs => take_len (r16_compressI32 hs) (by omega)) h3)
theorem r16_lbInit : R16 lbInit := r16_setr16 rfl
theorem rgbaSseLb_len : HLen 4 (rgbaSseLb src) := by
  intro offs w b
  unfold rgbaSseLb
  exact Post.bind' (rowsLoop_post l_rgbaLb8 (all_map_const r16_lbInit)) fun _ h1 =>
    Post.bind' (rowsLoop_post l_rgbaLb4 h1) fun _ h2 => Post.bind' (rowsLoop_post l_rgbaLb2 h2) fun _ h3 =>
    Post.bind' (rowsLoop_post l_rgbaLb1 h3) fun _ h4 => Post.pure (map_len (fun s hs => lbFinish_len hs) h4)
theorem all_map {σ τ : Type} {P : σ → Prop} {Q : τ → Prop} {f : σ → τ} (hf : ∀ s, P s → Q (f s)) {l : List σ}
    (h : ∀ s ∈ l, P s) : ∀ x ∈ l.map f, Q x := by
  intro x hx
  obtain ⟨s, hs, rfl⟩ := List.mem_map.mp hx
  exact hf s (h s hs)
theorem rgbaAvxLb_len : HLen 4 (rgbaAvxLb src) := by
  intro offs w b
  unfold rgbaAvxLb
  exact Post.bind' (rowsLoop_post (P := R32) l_rgbaAvxLb8 (all_map_const ⟨r16_lbInit, r16_setzero⟩)) fun _ h1 =>
    Post.bind' (rowsLoop_post l_rgbaAvxLb4 h1) fun _ h2 =>
    Post.bind' (rowsLoop_post l_rgbaAvxLb2 (all_map (fun s hs => r16_add16 hs.1 hs.2) h2)) fun _ h3 =>
    Post.bind' (rowsLoop_post l_rgbaLb1 h3) fun _ h4 => Post.pure (map_len (fun s hs => lbFinish_len hs) h4)
theorem rgbAvxWide_len {offs : List ℕ} : Post (rgbAvxWide src offs w b) (fun r => ∀ s ∈ r.2, R16 s) := by
  unfold rgbAvxWide
  refine Post.ite ?_ (Post.pure (all_map_const r16_set1epi32))
  exact Post.bind' (rowsLoop_post (P := R32) l_rgbAvx8 (all_map_const ⟨r16_setr32 rfl, r16_setzero⟩)) fun _ h1 =>
    Post.bind' (rowsLoop_post l_rgbAvx4 h1) fun _ h2 => Post.pure (all_map (fun s hs => r16_add32 hs.1 hs.2) h2)
theorem rgbAvx_len : HLen 3 (rgbAvx src) := by
  intro offs w b
  unfold rgbAvx
  exact Post.bind' rgbAvxWide_len fun _ h1 =>
    Post.bind' (rowsLoop_post l_rgbSse2 h1) fun _ h2 => Post.bind' (rowsLoop_post l_rgbAvx1 h2) fun _ h3 =>
    Post.pure (map_len (fun s hs => take_len (r16_compressI32 hs) (by omega)) h3)
theorem planeSse_len : HLen 1 (planeSse src) := by
  intro offs w b
  unfold planeSse
  exact Post.bind' (rowsLoop_post l_planeSse8 (all_map_const (r16_setr32 rfl))) fun _ h1 =>
    Post.bind' (rowsLoop_post l_planeSse4 h1) fun _ h2 => Post.bind' (rowsLoop_post l_planeSse1 h2) fun _ h3 =>
    Post.pure (map_len (fun s hs => planeFinish_len hs) h3)
theorem planeSseHrs_len : HLen 1 (planeSseHrs src) := by
  intro offs w b
  unfold planeSseHrs
  exact Post.bind' (rowsLoop_post l_planeHrs16 (all_map_const (r16_setr16 rfl))) fun _ h1 =>
    Post.bind' (rowsLoop_post l_planeHrs8 h1) fun _ h2 => Post.bind' (rowsLoop_post l_planeHrs4 h2) fun _ h3 =>
    Post.bind' (rowsLoop_post l_planeHrs1 h3) fun _ h4 => Post.pure (map_len (fun s hs => hrsFinish_len hs) h4)
theorem cbcrSseHrs_len : HLen 2 (cbcrSseHrs src) := by
  intro offs w b
  unfold cbcrSseHrs
  exact Post.bind' (rowsLoop_post l_cbcrHrs8 (all_map_const (r16_setr16 rfl))) fun _ h1 =>
    Post.bind' (rowsLoop_post l_cbcrHrs4 h1) fun _ h2 => Post.bind' (rowsLoop_post l_cbcrHrs2 h2) fun _ h3 =>
    Post.bind' (rowsLoop_post l_cbcrHrs1 h3) fun _ h4 => Post.pure (map_len (fun s hs => cbcrFinish_len hs) h4)

end

/-- The handler that is selected for `N` channels yields `N` samples. -/
theorem selectH_len {cpu : Cpu} {s : Workload} {N sw sh dw dh : ℕ} (hN : N = 1 ∨ N = 2 ∨ N = 3 ∨ N = 4)
    {h : List ℕ → List ℕ → List ℤ → Bounds → Option (List (List ℕ))}
    (hk : (selectH cpu s N sw sh dw dh).pixels = some h) (src : List ℕ) : HLen N (h src) := by
  rcases hN with rfl | rfl | rfl | rfl <;> simp only [selectH] at hk <;> split_ifs at hk <;>
    simp only [HKernel.pixels, Option.some.injEq, reduceCtorEq] at hk <;> subst hk
  exacts [planeSseHrs_len, planeSse_len, cbcrSseHrs_len, rgbAvx_len, rgbSse_len, rgbaAvxLb_len, rgbaSseLb_len,
    rgbaSse_len]

/-! ### columns -/

section
variable {src : List ℕ} {w : List ℤ} {b : Bounds} {ss : ℕ}

theorem sse32_len (x : ℕ) (d : List ℕ) : Post (sse32 b src ss w x d) (fun r => r.length = d.length) := by
  unfold sse32
  exact Post.bind fun _ _ => Post.bind fun _ _ => Post.bind' writeAt?_len fun _ h => writeAt?_len.mono fun r hr => by
    rw [hr, h]
theorem sse16_len (x : ℕ) (d : List ℕ) : Post (sse16 b src ss w x d) (fun r => r.length = d.length) := by
  unfold sse16; post_write
theorem sse8_len (x : ℕ) (d : List ℕ) : Post (sse8 b src ss w x d) (fun r => r.length = d.length) := by
  unfold sse8; post_write
theorem sse1_len (x : ℕ) (d : List ℕ) : Post (sse1 b src ss w x d) (fun r => r.length = d.length) := by
  unfold sse1; post_write
theorem avx64_len (x : ℕ) (d : List ℕ) : Post (avx64 b src ss w x d) (fun r => r.length = d.length) := by
  unfold avx64
  exact Post.bind fun _ _ => Post.bind fun _ _ => Post.bind' writeAt?_len fun _ h => writeAt?_len.mono fun r hr => by
    rw [hr, h]
theorem avx32_len (x : ℕ) (d : List ℕ) : Post (avx32 b src ss w x d) (fun r => r.length = d.length) := by
  unfold avx32; post_write
theorem avx8_len (x : ℕ) (d : List ℕ) : Post (avx8 b src ss w x d) (fun r => r.length = d.length) := by
  unfold avx8; post_write
theorem avx1_len (x : ℕ) (d : List ℕ) : Post (avx1 b src ss w x d) (fun r => r.length = d.length) := by
  unfold avx1; post_write
theorem lpStore_len {st : List (Reg × Reg)} (x : ℕ) (d : List ℕ) :
    Post (lpStore x st d) (fun r => r.length = d.length) := by
  unfold lpStore
  exact Post.foldlM (P := fun r : List ℕ => r.length = d.length)
    (fun a rs ha => writeAt?_len.mono fun r hr => by rw [hr, ha]) _ _ rfl
theorem lpBlock_len {R : ℕ} (x : ℕ) (d : List ℕ) : Post (lpBlock R b src ss w x d) (fun r => r.length = d.length) := by
  unfold lpBlock; exact Post.bind fun _ _ => lpStore_len _ _
theorem lpBlockUnrolled_len {R : ℕ} (x : ℕ) (d : List ℕ) :
    Post (lpBlockUnrolled R b src ss w x d) (fun r => r.length = d.length) := by
  unfold lpBlockUnrolled; exact Post.bind fun _ _ => lpStore_len _ _
theorem lp8_len (x : ℕ) (d : List ℕ) : Post (lp8 b src ss w x d) (fun r => r.length = d.length) := by
  unfold lp8; post_write
theorem lp1_len (x : ℕ) (d : List ℕ) : Post (lp1 b src ss w x d) (fun r => r.length = d.length) := by
  unfold lp1; post_write
theorem lp16avx_len (x : ℕ) (d : List ℕ) : Post (lp16avx b src ss w x d) (fun r => r.length = d.length) := by
  unfold lp16avx; post_write

variable {dst : List ℕ}

theorem sseColumn_len : Post (sseColumn b src dst ss w) (fun r => r.length = dst.length) := by
  unfold sseColumn
  exact Post.bind' (whileBlocks_len sse32_len _ _ _) fun _ h1 => Post.bind' (whileBlocks_len sse16_len _ _ _) fun _ h2 =>
    Post.bind' (whileBlocks_len sse8_len _ _ _) fun _ h3 => Post.bind' (whileBlocks_len sse1_len _ _ _) fun _ h4 =>
    Post.pure (by simp only [*])
theorem avxColumn_len : Post (avxColumn b src dst ss w) (fun r => r.length = dst.length) := by
  unfold avxColumn
  exact Post.bind' (whileBlocks_len avx64_len _ _ _) fun _ h1 => Post.bind' (whileBlocks_len avx32_len _ _ _) fun _ h2 =>
    Post.bind' (whileBlocks_len avx8_len _ _ _) fun _ h3 => Post.bind' (whileBlocks_len avx1_len _ _ _) fun _ h4 =>
    Post.pure (by simp only [*])
theorem sseColumnLp_len : Post (sseColumnLp b src dst ss w) (fun r => r.length = dst.length) := by
  unfold sseColumnLp
  exact Post.bind' (whileBlocks_len lpBlock_len _ _ _) fun _ h1 => Post.bind' (whileBlocks_len lpBlock_len _ _ _) fun _ h2 =>
    Post.bind' (whileBlocks_len lpBlockUnrolled_len _ _ _) fun _ h3 => Post.bind' (whileBlocks_len lp8_len _ _ _) fun _ h4 =>
    Post.bind' (whileBlocks_len lp1_len _ _ _) fun _ h5 => Post.pure (by simp only [*])
theorem avxColumnLp_len : Post (avxColumnLp b src dst ss w) (fun r => r.length = dst.length) := by
  unfold avxColumnLp
  exact Post.bind' (whileBlocks_len lpBlockUnrolled_len _ _ _) fun _ h1 =>
    Post.bind' (whileBlocks_len lpBlockUnrolled_len _ _ _) fun _ h2 =>
    Post.bind' (whileBlocks_len lp16avx_len _ _ _) fun _ h3 => Post.bind' (whileBlocks_len lp8_len _ _ _) fun _ h4 =>
    Post.bind' (whileBlocks_len lp1_len _ _ _) fun _ h5 => Post.pure (by simp only [*])
theorem vkernel_len {k : VKernel} : Post (k.column b src dst ss w) (fun r => r.length = dst.length) := by
  cases k
  exacts [columnFixed_len, sseColumn_len, avxColumn_len, sseColumnLp_len, avxColumnLp_len]

end

end PicScale
