import Verif.Lemmas.SchedVec
import Verif.Model.NeonF32

/-!
Lengths for the f32 handlers on x86 and AArch64.
-/

namespace PicScale

variable {A : Type}

/-- A register of four values. -/
def R4 (r : List A) : Prop := r.length = 4

theorem r4_set1v {v : A} : R4 (set1v v) := by simp [R4, set1v]
theorem r4_splat {o : VecOps A} {i : ℕ} {v : List A} : R4 (splat o i v) := r4_set1v
theorem r4_preferV {o : VecOps A} {fma : Bool} {a b c : List A} (ha : R4 a) (hb : R4 b) (hc : R4 c) :
    R4 (preferV o fma a b c) := by
  unfold R4 at *; unfold preferV; split <;> simp [ha, hb, hc]
theorem r4_loadps {src : List A} {off : ℕ} : Post (loadps src off) R4 :=
  slice?_post.mono fun r hr => by unfold R4; omega
theorem r4_loadRgb {o : VecOps A} {src : List A} {off : ℕ} : Post (loadRgb o src off) R4 :=
  map_post slice?_post fun r hr => by simp [R4, hr]
theorem r4_loadW4 {o : VecOps A} {w : List ℚ} {j : ℕ} : Post (loadW o w j 4) R4 :=
  map_post slice?_post fun r hr => by simp [R4, hr]

macro "r4" : tactic => `(tactic| (repeat' (first
  | assumption | exact r4_set1v | exact r4_splat | refine r4_preferV ?_ ?_ ?_ | rfl)))
macro "post_r4" : tactic => `(tactic| (repeat' (first
  | refine Post.bind' r4_loadps fun _ _ => ?_ | refine Post.bind' r4_loadRgb fun _ _ => ?_
  | refine Post.bind' r4_loadW4 fun _ _ => ?_
  | refine Post.bind fun _ _ => ?_ | refine Post.pure ?_)))

theorem r4_rgbPx4 {o : VecOps A} {fma : Bool} {src : List A} {w : List ℚ} {b : Bounds} (jx off : ℕ) (s : List A)
    (h : R4 s) : Post (rgbPx4 o fma src w b jx off s) R4 := by unfold rgbPx4; post_r4; r4
theorem r4_rgbPx2 {o : VecOps A} {fma : Bool} {src : List A} {w : List ℚ} {b : Bounds} (jx off : ℕ) (s : List A)
    (h : R4 s) : Post (rgbPx2 o fma src w b jx off s) R4 := by unfold rgbPx2; post_r4; r4
theorem r4_rgbPx1 {o : VecOps A} {fma : Bool} {src : List A} {w : List ℚ} {b : Bounds} (jx off : ℕ) (s : List A)
    (h : R4 s) : Post (rgbPx1 o fma src w b jx off s) R4 := by unfold rgbPx1; post_r4; r4
theorem r4_rgbaPx4F {o : VecOps A} {fma : Bool} {src : List A} {w : List ℚ} {b : Bounds} (jx off : ℕ) (s : List A)
    (h : R4 s) : Post (rgbaPx4F o fma src w b jx off s) R4 := by unfold rgbaPx4F; post_r4; r4
theorem r4_rgbaPx2F {o : VecOps A} {fma : Bool} {src : List A} {w : List ℚ} {b : Bounds} (jx off : ℕ) (s : List A)
    (h : R4 s) : Post (rgbaPx2F o fma src w b jx off s) R4 := by unfold rgbaPx2F; post_r4; r4
theorem r4_rgbaPx1F {o : VecOps A} {fma : Bool} {src : List A} {w : List ℚ} {b : Bounds} (jx off : ℕ) (s : List A)
    (h : R4 s) : Post (rgbaPx1F o fma src w b jx off s) R4 := by unfold rgbaPx1F; post_r4; r4
theorem r4_rgbaPx8F {o : VecOps A} {src : List A} {w : List ℚ} {b : Bounds} (jx off : ℕ) (s : List A)
    (h : R4 s) : Post (rgbaPx8F o src w b jx off s) R4 := by
  unfold rgbaPx8F
  exact Post.bind' (r4_rgbaPx4F _ _ _ h) fun a ha => r4_rgbaPx4F _ _ _ ha

theorem zeros_r4 {o : VecOps A} {offs : List ℕ} : ∀ s ∈ offs.map (fun _ => set1v o.zero), R4 s := by
  intro s hs
  obtain ⟨_, _, rfl⟩ := List.mem_map.mp hs
  exact r4_set1v

theorem map_any_len {σ S : Type} {N : ℕ} {f : σ → List S} (hf : ∀ s, (f s).length = N) {st : List σ} :
    ∀ r ∈ st.map f, r.length = N := map_len (P := fun _ => True) (fun s _ => hf s) fun _ _ => trivial

theorem planeNeonF_len {o : VecOps A} {k : ℕ} {src : List A} : HLen 1 (planeNeonF o k src) := by
  intro offs w b
  unfold planeNeonF
  exact Post.bind fun _ _ => Post.bind fun _ _ => Post.bind fun _ _ => Post.bind fun _ _ => Post.bind fun _ _ =>
    Post.pure (map_any_len fun _ => by rfl)
theorem planeSseF_len {o : VecOps A} {fma : Bool} {k : ℕ} {src : List A} : HLen 1 (planeSseF o fma k src) := by
  intro offs w b
  unfold planeSseF
  exact Post.bind fun _ _ => Post.bind fun _ _ => Post.bind fun _ _ => Post.bind fun _ _ => Post.bind fun _ _ =>
    Post.pure (map_any_len fun _ => by rfl)

theorem take3_len {s : List A} (h : R4 s) : (s.take 3).length = 3 := by unfold R4 at h; simp [h]

theorem rgbNeonF_len {o : VecOps A} {W : ℕ} {src : List A} : HLen 3 (rgbNeonF o W src) := by
  intro offs w b
  unfold rgbNeonF
  exact Post.bind' (rowsLoop_post r4_rgbPx4 zeros_r4) fun _ h1 => Post.bind' (rowsLoop_post r4_rgbPx2 h1) fun _ h2 =>
    Post.bind' (rowsLoop_post r4_rgbPx1 h2) fun _ h3 => Post.pure (map_len (fun s hs => take3_len hs) h3)
theorem rgbSseF_len {o : VecOps A} {fma : Bool} {src : List A} : HLen 3 (rgbSseF o fma src) := by
  intro offs w b
  unfold rgbSseF
  exact Post.bind' (rowsLoop_post r4_rgbPx4 zeros_r4) fun _ h1 => Post.bind' (rowsLoop_post r4_rgbPx2 h1) fun _ h2 =>
    Post.bind' (rowsLoop_post r4_rgbPx1 h2) fun _ h3 => Post.pure (map_len (fun s hs => take3_len hs) h3)
theorem rgbaSseF_len {o : VecOps A} {fma : Bool} {src : List A} : HLen 4 (rgbaSseF o fma src) := by
  intro offs w b
  unfold rgbaSseF
  exact Post.bind' (rowsLoop_post r4_rgbaPx4F zeros_r4) fun _ h1 => Post.bind' (rowsLoop_post r4_rgbaPx2F h1) fun _ h2 =>
    Post.bind' (rowsLoop_post r4_rgbaPx1F h2) fun _ h3 => Post.pure h3
theorem rgbaNeonF_len {o : VecOps A} {e : Bool} {src : List A} : HLen 4 (rgbaNeonF o e src) := by
  intro offs w b
  unfold rgbaNeonF
  refine Post.bind' (Q := fun r : ℕ × List (List A) => ∀ s ∈ r.2, R4 s) ?_ fun _ h0 =>
    Post.bind' (rowsLoop_post r4_rgbaPx4F h0) fun _ h1 => Post.bind' (rowsLoop_post r4_rgbaPx2F h1) fun _ h2 =>
    Post.bind' (rowsLoop_post r4_rgbaPx1F h2) fun _ h3 => Post.pure h3
  exact Post.ite (rowsLoop_post r4_rgbaPx8F zeros_r4) (Post.pure zeros_r4)

/-- A 256-bit register. -/
def R44 (r : List A × List A) : Prop := R4 r.1 ∧ R4 r.2

theorem r44_rgbaAvxPxR {o : VecOps A} {fma : Bool} {R : ℕ} {src : List A} {w : List ℚ} {b : Bounds} (jx off : ℕ)
    (s : List A × List A) (h : R44 s) : Post (rgbaAvxPxR o fma R src w b jx off s) R44 := by
  unfold rgbaAvxPxR
  refine forRange_post (fun t st hst => Post.bind fun ws _ => Post.bind' (Q := R44) ?_ fun px hpx => Post.pure ?_) h
  · unfold loadps2; exact Post.bind' r4_loadps fun _ h1 => Post.bind' r4_loadps fun _ h2 => Post.pure ⟨h1, h2⟩
  · exact ⟨r4_preferV hst.1 hpx.1 r4_splat, r4_preferV hst.2 hpx.2 r4_splat⟩
theorem r44_rgbaAvxPx1F {o : VecOps A} {fma : Bool} {src : List A} {w : List ℚ} {b : Bounds} (jx off : ℕ)
    (s : List A × List A) (h : R44 s) : Post (rgbaAvxPx1F o fma src w b jx off s) R44 := by
  unfold rgbaAvxPx1F
  exact Post.bind fun _ _ => Post.bind' r4_loadps fun p hp => Post.pure
    ⟨r4_preferV h.1 hp r4_set1v, r4_preferV h.2 r4_set1v r4_set1v⟩
theorem rgbaAvxF_len {o : VecOps A} {fma : Bool} {src : List A} : HLen 4 (rgbaAvxF o fma src) := by
  intro offs w b
  unfold rgbaAvxF
  refine Post.bind' (rowsLoop_post (P := R44) r44_rgbaAvxPxR ?_) fun _ h1 =>
    Post.bind' (rowsLoop_post r44_rgbaAvxPxR h1) fun _ h2 => Post.bind' (rowsLoop_post r44_rgbaAvxPxR h2) fun _ h3 =>
    Post.bind' (rowsLoop_post r44_rgbaAvxPx1F h3) fun _ h4 => Post.pure (map_len (fun s hs => ?_) h4)
  · intro s hs
    obtain ⟨_, _, rfl⟩ := List.mem_map.mp hs
    exact ⟨r4_set1v, r4_set1v⟩
  · have := hs.1; have := hs.2; unfold R4 at *; simp [*]

/-! ### columns -/

/-- Steps down a chain of block loops. -/
macro "post_blocks" : tactic => `(tactic| (repeat' (first
  | exact Post.pure (by simp only [*]) | refine Post.bind' (whileBlocks_len ?_ _ _ _) fun _ _ => ?_)))

theorem vBlockF_len {o : VecOps A} {fma : Bool} {R : ℕ} {b : Bounds} {src : List A} {ss : ℕ} {w : List ℚ} (x : ℕ)
    (d : List A) : Post (vBlockF o fma R b src ss w x d) (fun r => r.length = d.length) := by
  unfold vBlockF; post_write
theorem vBlock4NeonF_len {o : VecOps A} {b : Bounds} {src : List A} {ss : ℕ} {w : List ℚ} (x : ℕ)
    (d : List A) : Post (vBlock4NeonF o b src ss w x d) (fun r => r.length = d.length) := by
  unfold vBlock4NeonF; post_write
theorem vTailF_len {o : VecOps A} {fma avx : Bool} {b : Bounds} {src : List A} {ss : ℕ} {w : List ℚ} (x : ℕ)
    (d : List A) : Post (vTailF o fma avx b src ss w x d) (fun r => r.length = d.length) := by
  unfold vTailF; post_write

theorem neonColumnF_len {o : VecOps A} {b : Bounds} {src dst : List A} {ss : ℕ} {w : List ℚ} :
    Post (neonColumnF o b src dst ss w) (fun r => r.length = dst.length) := by
  unfold neonColumnF
  refine Post.bind' (whileBlocks_len vBlockF_len _ _ _) fun _ h1 =>
    Post.bind' (whileBlocks_len vBlockF_len _ _ _) fun _ h2 => Post.bind' (whileBlocks_len vBlockF_len _ _ _) fun _ h3 =>
    Post.bind' (whileBlocks_len vBlockF_len _ _ _) fun _ h4 =>
    Post.bind' (whileBlocks_len vBlock4NeonF_len _ _ _) fun _ h5 =>
    Post.bind' (whileBlocks_len vTailF_len _ _ _) fun _ h6 => Post.pure (by simp only [*])
theorem sseColumnF_len {o : VecOps A} {fma : Bool} {b : Bounds} {src dst : List A} {ss : ℕ} {w : List ℚ} :
    Post (sseColumnF o fma b src dst ss w) (fun r => r.length = dst.length) := by
  unfold sseColumnF
  refine Post.bind' (whileBlocks_len vBlockF_len _ _ _) fun _ h1 =>
    Post.bind' (whileBlocks_len vBlockF_len _ _ _) fun _ h2 => Post.bind' (whileBlocks_len vBlockF_len _ _ _) fun _ h3 =>
    Post.bind' (whileBlocks_len vBlockF_len _ _ _) fun _ h4 =>
    Post.bind' (whileBlocks_len vTailF_len _ _ _) fun _ h6 => Post.pure (by simp only [*])
theorem avxColumnF_len {o : VecOps A} {fma : Bool} {b : Bounds} {src dst : List A} {ss : ℕ} {w : List ℚ} :
    Post (avxColumnF o fma b src dst ss w) (fun r => r.length = dst.length) := by
  unfold avxColumnF
  refine Post.bind' (whileBlocks_len vBlockF_len _ _ _) fun _ h1 =>
    Post.bind' (whileBlocks_len vBlockF_len _ _ _) fun _ h2 => Post.bind' (whileBlocks_len vBlockF_len _ _ _) fun _ h3 =>
    Post.bind' (whileBlocks_len vTailF_len _ _ _) fun _ h6 => Post.pure (by simp only [*])
theorem columnF32X86_len {cpu : Cpu} {fma fused : Bool} {o : VecOps A} {b : Bounds} {src dst : List A} {ss : ℕ}
    {w : List ℚ} : Post (columnF32X86 cpu fma fused o b src dst ss w) (fun r => r.length = dst.length) := by
  unfold columnF32X86
  exact Post.ite avxColumnF_len (Post.ite sseColumnF_len columnFloat_len)

theorem rows4F32Neon_len {o : VecOps A} {N sw : ℕ} {src dst : List A} {ss ds : ℕ} {fw : FilterWeights ℚ} :
    Post (rows4F32Neon o N sw src ss dst ds fw) (fun r => r.length = dst.length) := by
  unfold rows4F32Neon
  split
  · subst N; exact simdRows4_len planeNeonF_len
  split
  · subst N; exact simdRows4_len rgbNeonF_len
  split
  · subst N; exact simdRows4_len rgbaNeonF_len
  exact rows4Float_len
theorem rowF32Neon_len {o : VecOps A} {N sw : ℕ} {src dst : List A} {fw : FilterWeights ℚ} :
    Post (rowF32Neon o N sw src dst fw) (fun r => r.length = dst.length) := by
  unfold rowF32Neon
  split
  · subst N; exact simdRow_len planeNeonF_len
  split
  · subst N; exact simdRow_len rgbNeonF_len
  split
  · subst N; exact simdRow_len rgbaNeonF_len
  exact rowFloat_len
theorem rows4F32X86_len {cpu : Cpu} {fma fused : Bool} {o : VecOps A} {N : ℕ} {src dst : List A} {ss ds : ℕ}
    {fw : FilterWeights ℚ} : Post (rows4F32X86 cpu fma fused o N src ss dst ds fw) (fun r => r.length = dst.length) := by
  unfold rows4F32X86
  split
  · next h => obtain rfl := h.1; exact simdRows4_len planeSseF_len
  split
  · next h => obtain rfl := h.1; exact simdRows4_len rgbSseF_len
  split
  · next h => obtain rfl := h.1; exact simdRows4_len rgbaAvxF_len
  split
  · next h => obtain rfl := h.1; exact simdRows4_len rgbaSseF_len
  exact rows4Float_len
theorem rowF32X86_len {cpu : Cpu} {fma fused : Bool} {o : VecOps A} {N : ℕ} {src dst : List A}
    {fw : FilterWeights ℚ} : Post (rowF32X86 cpu fma fused o N src dst fw) (fun r => r.length = dst.length) := by
  unfold rowF32X86
  split
  · next h => obtain rfl := h.1; exact simdRow_len planeSseF_len
  split
  · next h => obtain rfl := h.1; exact simdRow_len rgbSseF_len
  split
  · next h => obtain rfl := h.1; exact simdRow_len rgbaAvxF_len
  split
  · next h => obtain rfl := h.1; exact simdRow_len rgbaSseF_len
  exact rowFloat_len

end PicScale
