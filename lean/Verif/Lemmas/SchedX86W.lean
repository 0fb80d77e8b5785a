import Verif.Lemmas.SchedX86
import Verif.Model.X86Ar30

/-!
Lengths for the x86 handlers of 16-bit and packed 10-bit images.
-/

namespace PicScale

theorem r16_load128w {src : List ℕ} {off : ℕ} : Post (load128w src off) R16 :=
  map_post slice?_post fun b hb => by simp [R16, hb]
theorem r16_load64w {src : List ℕ} {off : ℕ} : Post (load64w src off) R16 :=
  map_post slice?_post fun b hb => by simp [R16, hb]
theorem r16_min16 {a b : Reg} (ha : R16 a) (hb : R16 b) : R16 (min16 a b) := by
  unfold R16 at *; simp [min16, ha, hb]
theorem r16_min32 {a b : Reg} (ha : R16 a) (hb : R16 b) : R16 (min32 a b) := by
  unfold R16 at *; simp [min32, ha, hb]
theorem toU16_len {a : Reg} (ha : R16 a) : (toU16 a).length = 8 := by
  unfold R16 at ha; simp [toU16, ha]
theorem r16_cvtpsepi32 {a : RegF} (ha : R4 a) : R16 (cvtpsepi32 a) := by
  unfold R4 at ha; simp [R16, cvtpsepi32, ha]

/-- Steps down a do-block that loads 16-bit samples. -/
macro "post_r16w" : tactic => `(tactic| (repeat' (first
  | refine Post.bind' r16_load128w fun _ _ => ?_ | refine Post.bind' r16_load64w fun _ _ => ?_
  | refine Post.bind' (r16_loadWeights (by omega)) fun _ _ => ?_
  | refine Post.bind fun _ _ => ?_ | refine Post.pure ?_)))

section
variable {src : List ℕ} {w : List ℤ} {b : Bounds}

theorem l_lb16Px1 (jx o : ℕ) (s : Reg) (h : R16 s) : Post (rgbaLb16Px1 src w b jx o s) R16 := by
  unfold rgbaLb16Px1; post_r16w; r16
theorem l_lb16Px2 (jx o : ℕ) (s : Reg) (h : R16 s) : Post (rgbaLb16Px2 src w b jx o s) R16 := by
  unfold rgbaLb16Px2; post_r16w
  try dsimp only
  r16
theorem r16_lb16Four {px0 px1 s : Reg} {w0 w1 w2 w3 : ℤ} (h0 : R16 px0) (h1 : R16 px1) (h : R16 s) :
    R16 (rgbaLb16Four px0 px1 w0 w1 w2 w3 s) := by
  unfold rgbaLb16Four; dsimp only; r16
theorem l_lb16Px4 (jx o : ℕ) (s : Reg) (h : R16 s) : Post (rgbaLb16Px4 src w b jx o s) R16 := by
  unfold rgbaLb16Px4; post_r16w; exact r16_lb16Four (by assumption) (by assumption) h
theorem l_lb16Px8 (jx o : ℕ) (s : Reg) (h : R16 s) : Post (rgbaLb16Px8 src w b jx o s) R16 := by
  unfold rgbaLb16Px8; post_r16w
  exact r16_lb16Four (by assumption) (by assumption) (r16_lb16Four (by assumption) (by assumption) h)
theorem lb16Store_len {d : ℕ} {s : Reg} (h : R16 s) : (rgbaLb16Store d s).length = 4 := by
  have : R16 (min16 (packus32 (srai32 PRECISION s) (srai32 PRECISION s)) (set1epi16 (2 ^ d - 1))) :=
    r16_min16 (by r16) (by r16)
  unfold rgbaLb16Store
  dsimp only
  rw [List.length_take, toU16_len this]
  rfl
theorem rgbaSseLb16_len {d : ℕ} : HLen 4 (rgbaSseLb16 d src) := by
  intro offs w b
  unfold rgbaSseLb16
  exact Post.bind' (rowsLoop_post l_lb16Px8 (all_map_const r16_set1epi32)) fun _ h1 =>
    Post.bind' (rowsLoop_post l_lb16Px4 h1) fun _ h2 => Post.bind' (rowsLoop_post l_lb16Px2 h2) fun _ h3 =>
    Post.bind' (rowsLoop_post l_lb16Px1 h3) fun _ h4 => Post.pure (map_len (fun s hs => lb16Store_len hs) h4)
theorem l_avx16Px8 {f : Bool} (jx o : ℕ) (s : Reg × Reg) (h : R32 s) : Post (rgbaAvx16Px8 f src w b jx o s) R32 := by
  unfold rgbaAvx16Px8; post_r16w
  exact r32_dot16x2 (r32_dot16x2 h (r32_shuffle8x2 rfl) (r32_shuffle8x2 rfl)) (r32_shuffle8x2 rfl) (r32_shuffle8x2 rfl)
theorem l_avx16Px4 {f : Bool} (jx o : ℕ) (s : Reg × Reg) (h : R32 s) : Post (rgbaAvx16Px4 f src w b jx o s) R32 := by
  unfold rgbaAvx16Px4; post_r16w
  exact r32_dot16x2 h (r32_shuffle8x2 rfl) (r32_shuffle8x2 rfl)
theorem l_avx16Px2 (jx o : ℕ) (s : Reg) (h : R16 s) : Post (rgbaAvx16Px2 src w b jx o s) R16 := by
  unfold rgbaAvx16Px2; post_r16w; r16
theorem l_avx16Px1 (jx o : ℕ) (s : Reg) (h : R16 s) : Post (rgbaAvx16Px1 src w b jx o s) R16 := by
  unfold rgbaAvx16Px1; post_r16w; r16
theorem rgbaAvxLb16_len {f : Bool} {d : ℕ} : HLen 4 (rgbaAvxLb16 f d src) := by
  intro offs w b
  unfold rgbaAvxLb16
  exact Post.bind' (rowsLoop_post (P := R32) l_avx16Px8 (all_map_const ⟨r16_setr32 rfl, r16_setr32 rfl⟩)) fun _ h1 =>
    Post.bind' (rowsLoop_post l_avx16Px4 h1) fun _ h2 =>
    Post.bind' (rowsLoop_post l_avx16Px2 (all_map (fun s hs => r16_add32 hs.1 hs.2) h2)) fun _ h3 =>
    Post.bind' (rowsLoop_post l_avx16Px1 h3) fun _ h4 => Post.pure (map_len (fun s hs => lb16Store_len hs) h4)
end

section
variable {src : List ℕ} {w : List ℚ} {b : Bounds} {fma : Bool}

theorem r4_preferFma {a c d : RegF} (ha : R4 a) (hc : R4 c) (hd : R4 d) : R4 (preferFma fma a c d) := by
  unfold R4 at *; unfold preferFma; split <;> simp [fmaddps, addps, mulps, ha, hc, hd]
theorem r4_cvtLo {v : Reg} (h : R16 v) : R4 (cvtLo v) := by
  have : R16 (unpacklo16 v setzero) := by r16
  unfold R16 at this; simp [R4, cvtLo, cvtepi32ps, this]
theorem r4_cvtHi {v : Reg} (h : R16 v) : R4 (cvtHi v) := by
  have : R16 (unpackhi16 v setzero) := by r16
  unfold R16 at this; simp [R4, cvtHi, cvtepi32ps, this]
theorem r4_set1ps {q : ℚ} : R4 (set1ps q) := by simp [R4, set1ps]

macro "r4f" : tactic => `(tactic| (repeat' (first
  | with_reducible assumption | with_reducible exact r4_set1ps | with_reducible apply r4_cvtLo
  | with_reducible apply r4_cvtHi | with_reducible apply r4_preferFma)))

theorem l_fpPx1 (jx o : ℕ) (s : RegF) (h : R4 s) : Post (rgbaFpPx1 fma src w b jx o s) R4 := by
  unfold rgbaFpPx1; post_r16w; r4f
theorem l_fpPx2 (jx o : ℕ) (s : RegF) (h : R4 s) : Post (rgbaFpPx2 fma src w b jx o s) R4 := by
  unfold rgbaFpPx2; post_r16w
  try dsimp only
  r4f
theorem l_fpPx4 (jx o : ℕ) (s : RegF) (h : R4 s) : Post (rgbaFpPx4 fma src w b jx o s) R4 := by
  unfold rgbaFpPx4; post_r16w
  try dsimp only
  r4f
theorem r4_fpFour {px0 px1 : Reg} {w0 w1 w2 w3 : ℚ} {s : RegF} (h0 : R16 px0) (h1 : R16 px1) (h : R4 s) :
    R4 (rgbaFpFour fma px0 px1 w0 w1 w2 w3 s) := by
  unfold rgbaFpFour; dsimp only; r4f
theorem l_fpPx8 (jx o : ℕ) (s : RegF) (h : R4 s) : Post (rgbaFpPx8 fma src w b jx o s) R4 := by
  unfold rgbaFpPx8; post_r16w
  exact r4_fpFour (by assumption) (by assumption) (r4_fpFour (by assumption) (by assumption) h)
theorem fpStore_len {d : ℕ} {s : RegF} (h : R4 s) : (rgbaFpStore d s).length = 4 := by
  have hv : R16 (min32 (cvtpsepi32 (maxps0 s)) (set1epi32 (2 ^ d - 1))) :=
    r16_min32 (r16_cvtpsepi32 (by unfold R4 at *; simp [maxps0, h])) r16_set1epi32
  unfold rgbaFpStore
  dsimp only
  rw [List.length_take, toU16_len (r16_packus32 hv hv)]
  rfl
theorem rgbaSseFp_len {d : ℕ} : HLen 4 (rgbaSseFp fma d src) := by
  intro offs w b
  unfold rgbaSseFp
  exact Post.bind' (rowsLoop_post l_fpPx8 (all_map_const r4_set1ps)) fun _ h1 =>
    Post.bind' (rowsLoop_post l_fpPx4 h1) fun _ h2 => Post.bind' (rowsLoop_post l_fpPx2 h2) fun _ h3 =>
    Post.bind' (rowsLoop_post l_fpPx1 h3) fun _ h4 => Post.pure (map_len (fun s hs => fpStore_len hs) h4)
end

/-! ### columns and selection -/

section
variable {src dst : List ℕ} {b : Bounds} {ss ds N d : ℕ} {cpu : Cpu} {fma fused : Bool}

theorem sseColumnLb_len {w : List ℤ} : Post (sseColumnLb d b src dst ss w) (fun r => r.length = dst.length) := by
  unfold sseColumnLb
  exact Post.bind' chunkLoop_len fun _ h1 => Post.bind' chunkLoop_len fun _ h2 => Post.bind' chunkLoop_len fun _ h3 =>
    Post.bind' chunkLoop_len fun _ h4 => Post.pure (by simp only [*])
theorem avxColumnLb_len {w : List ℤ} : Post (avxColumnLb d b src dst ss w) (fun r => r.length = dst.length) := by
  unfold avxColumnLb
  exact Post.bind' chunkLoop_len fun _ h1 => Post.bind' chunkLoop_len fun _ h2 => Post.bind' chunkLoop_len fun _ h3 =>
    Post.bind' chunkLoop_len fun _ h4 => Post.bind' chunkLoop_len fun _ h5 => Post.pure (by simp only [*])
theorem sseColumnFp_len {w : List ℚ} :
    Post (sseColumnFp fma fused d b src dst ss w) (fun r => r.length = dst.length) := by
  unfold sseColumnFp
  exact Post.bind' chunkLoop_len fun _ h1 => Post.bind' chunkLoop_len fun _ h2 => Post.bind' chunkLoop_len fun _ h3 =>
    Post.bind' chunkLoop_len fun _ h4 => Post.pure (by simp only [*])
theorem fixedColumnX86_len {w : List ℤ} :
    Post (fixedColumnX86 cpu d b src dst ss w) (fun r => r.length = dst.length) := by
  unfold fixedColumnX86
  exact Post.ite avxColumnLb_len (Post.ite sseColumnLb_len columnFixed_len)
theorem floatColumnX86_len {w : List ℚ} :
    Post (floatColumnX86 cpu fma fused d b src dst ss w) (fun r => r.length = dst.length) := by
  unfold floatColumnX86
  exact Post.ite sseColumnFp_len columnFloat_len
theorem fixedRows4X86_len {fw : FilterWeights ℤ} :
    Post (fixedRows4X86 cpu N d src ss dst ds fw) (fun r => r.length = dst.length) := by
  unfold fixedRows4X86
  split
  · next h => obtain rfl := h.1; exact simdRows4_len rgbaAvxLb16_len
  split
  · next h => obtain rfl := h.1; exact simdRows4_len rgbaSseLb16_len
  exact rows4Fixed_len
theorem fixedRowX86_len {fw : FilterWeights ℤ} :
    Post (fixedRowX86 cpu N d src dst fw) (fun r => r.length = dst.length) := by
  unfold fixedRowX86
  split
  · next h => obtain rfl := h.1; exact simdRow_len rgbaAvxLb16_len
  split
  · next h => obtain rfl := h.1; exact simdRow_len rgbaSseLb16_len
  exact rowFixed_len
theorem floatRowX86_len {fw : FilterWeights ℚ} :
    Post (floatRowX86 cpu fma fused N d src dst fw) (fun r => r.length = dst.length) := by
  unfold floatRowX86
  split
  · next h => obtain rfl := h.1; exact simdRow_len rgbaSseFp_len
  exact rowFloat_len
theorem floatRows4X86_len {fw : FilterWeights ℚ} :
    Post (floatRows4X86 cpu fma fused N d src ss dst ds fw) (fun r => r.length = dst.length) := by
  unfold floatRows4X86
  dsimp only
  split
  · next h =>
    obtain rfl := h.1
    exact Post.bind' (simdRows4_len rgbaSseFp_len) fun r hr => rows4Float_len.mono fun _ h => h.trans hr
  · exact Post.bind' (Q := fun r : List ℕ => r.length = dst.length) (Post.pure rfl) fun r hr => rows4Float_len.mono fun _ h => h.trans hr
end

/-! ### packed 10 bit -/

section
variable {t : Rgb30} {o : Ar30Order} {src : List ℕ} {w : List ℤ} {b : Bounds}

@[simp] theorem srli64_len {n : ℕ} {a : Reg} : (srli64 n a).length = 16 := rfl
@[simp] theorem slli64_len {n : ℕ} {a : Reg} : (slli64 n a).length = 16 := rfl
@[simp] theorem set1epi64_len {v : ℕ} : (set1epi64 v).length = 16 := rfl
theorem r16_order {v : Reg} (h : R16 v) : R16 (order128 o v) := by
  cases o
  · exact h
  · exact r16_shuffle8 rfl
theorem r16_extract30 {v : Reg} (h : R16 v) : R16 (extract30 t o v) := by
  unfold extract30
  apply r16_order
  unfold R16 at *
  cases t <;> simp [or128, and128, h]
theorem ar30Store_len {prec : ℕ} {cut s : Reg} (hc : R16 cut) (h : R16 s) : (ar30Store t o prec cut s).length = 4 := by
  unfold ar30Store
  exact take_len (r16_extract30 (r16_min16 (by r16) hc)) (by omega)
theorem r16_dotSh1 {s v x : Reg} (h : R16 s) (hx : R16 x) : R16 (dotSh1 s v x) :=
  r16_add32 h (r16_madd16 (r16_shuffle8 rfl) hx)
theorem l_ar30Px1 (jx off : ℕ) (s : Reg) (h : R16 s) : Post (ar30Px1 t o src w b jx off s) R16 := by
  unfold ar30Px1
  refine Post.bind fun _ _ => Post.bind' (Q := R16) ?_ fun _ _ => Post.pure (by r16)
  unfold ld1
  exact Post.bind fun _ _ => Post.pure (by simp [R16])
theorem l_ar30Px8 (jx off : ℕ) (s : Reg) (h : R16 s) : Post (ar30Px8 t o src w b jx off s) R16 := by
  unfold ar30Px8; post_r16
  exact r16_dotSh1 (r16_dotSh1 (r16_dotSh1 (r16_dotSh1 h (by r16)) (by r16)) (by r16)) (by r16)
theorem l_ar30Px4 (jx off : ℕ) (s : Reg) (h : R16 s) : Post (ar30Px4 t o src w b jx off s) R16 := by
  unfold ar30Px4; post_r16
  exact r16_dotSh1 (r16_dotSh1 h (by r16)) (by r16)
theorem ar30Sse_len {prec : ℕ} {cut : Reg} (hc : R16 cut) : HLen 4 (ar30Sse t o prec cut src) := by
  intro offs w b
  unfold ar30Sse
  exact Post.bind' (rowsLoop_post l_ar30Px8 (all_map_const r16_set1epi32)) fun _ h1 =>
    Post.bind' (rowsLoop_post l_ar30Px4 h1) fun _ h2 => Post.bind' (rowsLoop_post l_ar30Px1 h2) fun _ h3 =>
    Post.pure (map_len (fun s hs => ar30Store_len hc hs) h3)
theorem ar30Rows4_len : HLen 4 (ar30Rows4 t o src) := ar30Sse_len r16_set1epi16
theorem ar30Row_len : HLen 4 (ar30Row t o src) := ar30Sse_len r16_set1epi32
theorem ar30Block_len {ss : ℕ} (x : ℕ) (d : List ℕ) :
    Post (ar30Block t o b src ss w x d) (fun r => r.length = d.length) := by
  unfold ar30Block; post_write
theorem ar30Tail_len {ss n x : ℕ} {d : List ℕ} :
    Post (ar30Tail t o b src ss w n x d) (fun r => r.length = d.length) := by
  unfold ar30Tail; post_write
theorem sseColumn30_len {dst : List ℕ} {ss : ℕ} :
    Post (sseColumn30 t o b src dst ss w) (fun r => r.length = dst.length) := by
  unfold sseColumn30
  exact Post.bind' (whileBlocks_len ar30Block_len _ _ _) fun _ h1 =>
    Post.ite (ar30Tail_len.mono fun r hr => by rw [hr, h1]) (Post.pure h1)
end

end PicScale
