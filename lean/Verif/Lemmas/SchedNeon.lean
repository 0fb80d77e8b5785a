import Verif.Lemmas.SchedF32
import Verif.Model.NeonU8
import Verif.Model.NeonU16
import Verif.Model.NeonAr30

/-!
Lengths for the NEON handlers of 8-bit, 16-bit and packed 10-bit images.
-/

namespace PicScale

/-- The result of row loops, finished row by row. -/
macro "post_rows" : tactic => `(tactic| (repeat' (first
  | refine Post.bind fun _ _ => ?_ | exact Post.pure (map_any_len fun _ => by first | rfl | simp))))

theorem rgbaNeon_len {D : Bool} {src : List ℕ} : HLen 4 (rgbaNeon D src) := by
  intro offs w b; unfold rgbaNeon; post_rows
theorem rgbNeon_len {D : Bool} {src : List ℕ} : HLen 3 (rgbNeon D src) := by
  intro offs w b; unfold rgbNeon; post_rows
theorem planeNeon_len {D : Bool} {src : List ℕ} : HLen 1 (planeNeon D src) := by
  intro offs w b; unfold planeNeon; post_rows
theorem rgbaRdm_len {src : List ℕ} : HLen 4 (rgbaRdm src) := by
  intro offs w b; unfold rgbaRdm; post_rows
theorem rgbRdm_len {src : List ℕ} : HLen 3 (rgbRdm src) := by
  intro offs w b; unfold rgbRdm; post_rows
theorem planeRdm_len {src : List ℕ} : HLen 1 (planeRdm src) := by
  intro offs w b; unfold planeRdm; post_rows
theorem cbcrRdm_len {src : List ℕ} : HLen 2 (cbcrRdm src) := by
  intro offs w b; unfold cbcrRdm; post_rows
theorem rgbaNeonLb16_len {d : ℕ} {src : List ℕ} : HLen 4 (rgbaNeonLb16 d src) := by
  intro offs w b; unfold rgbaNeonLb16; post_rows
theorem ar30Neon_len {t : Rgb30} {o : Ar30Order} {src : List ℕ} : HLen 4 (ar30Neon t o src) := by
  intro offs w b; unfold ar30Neon; post_rows
theorem ar30Rdm_len {t : Rgb30} {o : Ar30Order} {src : List ℕ} : HLen 4 (ar30Rdm t o src) := by
  intro offs w b; unfold ar30Rdm; post_rows

theorem neonH_len {k : NeonH} {N : ℕ} (hN : N = 1 ∨ N = 2 ∨ N = 3 ∨ N = 4)
    {h : List ℕ → List ℕ → List ℤ → Bounds → Option (List (List ℕ))} (hk : k.pixels N = some h) (src : List ℕ) :
    HLen N (h src) := by
  rcases hN with rfl | rfl | rfl | rfl <;> cases k <;> simp [NeonH.pixels] at hk <;> subst hk
  exacts [planeNeon_len, planeRdm_len, cbcrRdm_len, rgbNeon_len, rgbRdm_len, rgbaNeon_len, rgbaRdm_len]

/-! ### columns -/

theorem neonChunk_len {tap : ℤ → ℕ → ℤ → ℤ} {i : ℤ} {fin : ℤ → ℕ} {B : ℕ} {b : Bounds} {src : List ℕ} {ss : ℕ}
    {w : List ℤ} (x : ℕ) (d : List ℕ) :
    Post (neonChunk tap i fin B b src ss w x d) (fun r => r.length = d.length) := by
  unfold neonChunk; post_write
theorem neonChunk8_len {D : Bool} {b : Bounds} {src : List ℕ} {ss : ℕ} {w : List ℤ} (x : ℕ) (d : List ℕ) :
    Post (neonChunk8 D b src ss w x d) (fun r => r.length = d.length) := by
  unfold neonChunk8; post_write
theorem neonRdmChunk16_len {b : Bounds} {src : List ℕ} {ss : ℕ} {w : List ℤ} (x : ℕ) (d : List ℕ) :
    Post (neonRdmChunk16 b src ss w x d) (fun r => r.length = d.length) := by
  unfold neonRdmChunk16; post_write

theorem neonColumn_len {D : Bool} {b : Bounds} {src dst : List ℕ} {ss : ℕ} {w : List ℤ} :
    Post (neonColumn D b src dst ss w) (fun r => r.length = dst.length) := by
  unfold neonColumn
  refine Post.bind' (whileBlocks_len neonChunk_len _ _ _) fun _ h1 =>
    Post.bind' (whileBlocks_len neonChunk_len _ _ _) fun _ h2 => Post.bind' (whileBlocks_len neonChunk_len _ _ _) fun _ h3 =>
    Post.bind' (whileBlocks_len neonChunk8_len _ _ _) fun _ h4 =>
    Post.bind' (whileBlocks_len neonChunk_len _ _ _) fun _ h5 => Post.pure (by simp only [*])
theorem neonRdmColumn_len {b : Bounds} {src dst : List ℕ} {ss : ℕ} {w : List ℤ} :
    Post (neonRdmColumn b src dst ss w) (fun r => r.length = dst.length) := by
  unfold neonRdmColumn
  refine Post.bind' (whileBlocks_len neonChunk_len _ _ _) fun _ h1 =>
    Post.bind' (whileBlocks_len neonChunk_len _ _ _) fun _ h2 =>
    Post.bind' (whileBlocks_len neonRdmChunk16_len _ _ _) fun _ h3 =>
    Post.bind' (whileBlocks_len neonChunk_len _ _ _) fun _ h4 =>
    Post.bind' (whileBlocks_len neonChunk_len _ _ _) fun _ h5 => Post.pure (by simp only [*])
theorem neonV_len {k : NeonV} {b : Bounds} {src dst : List ℕ} {ss : ℕ} {w : List ℤ} :
    Post (k.column b src dst ss w) (fun r => r.length = dst.length) := by
  cases k
  exacts [neonColumn_len, neonRdmColumn_len]

theorem neonColumnLb_len {d : ℕ} {b : Bounds} {src dst : List ℕ} {ss : ℕ} {w : List ℤ} :
    Post (neonColumnLb d b src dst ss w) (fun r => r.length = dst.length) := by
  unfold neonColumnLb
  exact Post.bind' chunkLoop_len fun _ h1 => Post.bind' chunkLoop_len fun _ h2 => Post.bind' chunkLoop_len fun _ h3 =>
    Post.bind' chunkLoop_len fun _ h4 => Post.pure (by simp only [*])
theorem neonColumnHalf_len {d : ℕ} {b : Bounds} {src dst : List ℕ} {ss : ℕ} {w : List ℚ} :
    Post (neonColumnHalf d b src dst ss w) (fun r => r.length = dst.length) := by
  unfold neonColumnHalf
  exact Post.bind' chunkLoop_len fun _ h1 => Post.bind' chunkLoop_len fun _ h2 => Post.bind' chunkLoop_len fun _ h3 =>
    Post.bind' chunkLoop_len fun _ h4 => Post.pure (by simp only [*])
theorem neonColumnF32_len {d : ℕ} {b : Bounds} {src dst : List ℕ} {ss : ℕ} {w : List ℚ} :
    Post (neonColumnF32 d b src dst ss w) (fun r => r.length = dst.length) := by
  unfold neonColumnF32
  exact Post.bind' chunkLoop_len fun _ h1 => Post.bind' chunkLoop_len fun _ h2 => Post.bind' chunkLoop_len fun _ h3 =>
    Post.bind' chunkLoop_len fun _ h4 => Post.pure (by simp only [*])

theorem fixedRows4Neon_len {N d : ℕ} {src dst : List ℕ} {ss ds : ℕ} {fw : FilterWeights ℤ} :
    Post (fixedRows4Neon N d src ss dst ds fw) (fun r => r.length = dst.length) := by
  unfold fixedRows4Neon
  split
  · subst N; exact simdRows4_len rgbaNeonLb16_len
  · exact rows4Fixed_len
theorem fixedRowNeon_len {N d : ℕ} {src dst : List ℕ} {fw : FilterWeights ℤ} :
    Post (fixedRowNeon N d src dst fw) (fun r => r.length = dst.length) := by
  unfold fixedRowNeon
  split
  · subst N; exact simdRow_len rgbaNeonLb16_len
  · exact rowFixed_len

theorem ar30NeonBlock_len {t : Rgb30} {o : Ar30Order} {b : Bounds} {src : List ℕ} {ss : ℕ} {w : List ℤ} (x : ℕ)
    (d : List ℕ) : Post (ar30NeonBlock t o b src ss w x d) (fun r => r.length = d.length) := by
  unfold ar30NeonBlock; post_write
theorem ar30RdmBlock_len {t : Rgb30} {o : Ar30Order} {b : Bounds} {src : List ℕ} {ss : ℕ} {w : List ℤ} (x : ℕ)
    (d : List ℕ) : Post (ar30RdmBlock t o b src ss w x d) (fun r => r.length = d.length) := by
  unfold ar30RdmBlock; post_write
theorem ar30NeonTail_len {t : Rgb30} {o : Ar30Order} {b : Bounds} {src : List ℕ} {ss : ℕ} {w : List ℤ} {n x : ℕ}
    {d : List ℕ} : Post (ar30NeonTail t o b src ss w n x d) (fun r => r.length = d.length) := by
  unfold ar30NeonTail; post_write
theorem neonColumn30_len {t : Rgb30} {o : Ar30Order} {b : Bounds} {src dst : List ℕ} {ss : ℕ} {w : List ℤ} :
    Post (neonColumn30 t o b src dst ss w) (fun r => r.length = dst.length) := by
  unfold neonColumn30
  exact Post.bind' (whileBlocks_len ar30NeonBlock_len _ _ _) fun _ h1 =>
    Post.ite (ar30NeonTail_len.mono fun r hr => by rw [hr, h1]) (Post.pure h1)
theorem rdmColumn30_len {t : Rgb30} {o : Ar30Order} {b : Bounds} {src dst : List ℕ} {ss : ℕ} {w : List ℤ} :
    Post (rdmColumn30 t o b src dst ss w) (fun r => r.length = dst.length) := by
  unfold rdmColumn30
  exact Post.bind' (whileBlocks_len ar30RdmBlock_len _ _ _) fun _ h1 =>
    Post.bind' (whileBlocks_len columnBlock30_len _ _ _) fun _ h2 =>
    Post.bind' (whileBlocks_len columnBlock30_len _ _ _) fun _ h3 => Post.pure (by simp only [*])

end PicScale
