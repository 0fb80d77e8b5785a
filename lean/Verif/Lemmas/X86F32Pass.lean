import Verif.Lemmas.X86F32P
import Verif.Lemmas.X86U16Pass

/-! The passes of f32 images on x86, as functions of the picture. -/

namespace PicScale

open Spec

variable {A : Type}

/-- Vertical pass: destination row `y`, position `q`. -/
def vvF32 (cpu : Cpu) (fma fused : Bool) (o : VecOps A) (fw : FilterWeights ℚ) (y q : ℕ) (P : ℕ → ℕ → A) : A :=
  let p := fun k => P ((fw.bound y).start + k) q
  let w := fun k => o.weight (fw.weight y k)
  let n := (fw.bound y).size
  if cpu.avx2 then chain (o.mulAdd fma) o.zero p w n
  else if cpu.sse41 then chain (o.mulAdd false) o.zero p w n
  else floatVal (o.scalar fused) n p w

/-- Horizontal pass: row `y` of `H`, pixel `x`, channel `c`. -/
def hvF32 (cpu : Cpu) (fma fused : Bool) (o : VecOps A) (N : ℕ) (fw : FilterWeights ℚ) (H y x c : ℕ) (r : ℕ → A) : A :=
  let p := fun k => r (((fw.bound x).start + k) * N + c)
  let w := fun k => o.weight (fw.weight x k)
  let n := (fw.bound x).size
  let single := ¬ y < H / 4 * 4
  if N = 1 ∧ cpu.sse41 then quadSum o.add (o.mulAdd fma) o.zero (decide single) p w n
  else if N = 3 ∧ cpu.sse41 then chain (o.mulAdd fma) o.zero p w n
  else if N = 4 ∧ cpu.avx2 then pairSum o.add (o.mulAdd (fma && !decide single)) o.zero p w n
  else if N = 4 ∧ cpu.sse41 then chain (o.mulAdd false) o.zero p w n
  else floatVal (o.scalar fused) n p w

theorem verticalX86_f32 (cpu : Cpu) (fma fused : Bool) (o : VecOps A) {N : ℕ} (hN : 1 ≤ N ∧ N ≤ 4) (src dst : Image A)
    (fw : FilterWeights ℚ) (hs : src.validate N = .ok ()) (hd : dst.validate N = .ok ())
    (hw : src.width = dst.width) (hdw : 0 < dst.width) (hT : ValidTable fw src.height dst.height) :
    ∃ out, (formatF32X86 cpu fma fused o N).vertical src dst fw = some out ∧ SameShape out dst ∧
      PaddingKept N dst out ∧
      ∀ y x c, y < dst.height → x < dst.width → c < N →
        sample out.buffer (dst.strideOf N) N y x c = some (vvF32 cpu fma fused o fw y (x * N + c)
          (rowPos o.zero src.buffer (src.strideOf N))) := by
  simp only [formatF32X86]
  have hw' : ∀ y, ∀ k, k < (fw.bound y).size → y < dst.height → (rowW fw y).getD k 0 = fw.weight y k :=
    fun y k hk hy => by
      unfold rowW FilterWeights.weight
      simp [List.getD_eq_getElem?_getD, List.getElem?_drop]
  have hvacc : ∀ fm y q, y < dst.height → vAccF o fm src.buffer (src.strideOf N) (fw.bound y) (rowW fw y) (fw.bound y).size q =
      chain (o.mulAdd fm) o.zero (fun k => rowPos o.zero src.buffer (src.strideOf N) ((fw.bound y).start + k) q)
        (fun k => o.weight (fw.weight y k)) (fw.bound y).size := by
    intro fm y q hy
    unfold vAccF
    apply chain_congr
    · intro k _
      unfold rowPos
      rw [Nat.mul_comm]
    · intro k hk
      rw [hw' y k hk hy]
  by_cases havx : cpu.avx2
  · have e : (fun b s dd ss w => columnF32X86 cpu fma fused o b s dd ss w) =
        fun b s dd ss w => avxColumnF o fma b s dd ss w := by
      funext b s dd ss w; unfold columnF32X86; rw [if_pos havx]
    rw [e]
    obtain ⟨r, e1, e2, e3, e4⟩ := verticalG_raw (column := avxColumnF o fma) (fw := fw)
      (V := fun y q => vvF32 cpu fma fused o fw y q (rowPos o.zero src.buffer (src.strideOf N)))
      (fun y dd hy hl hp => by
        obtain ⟨r, r1, r2, r3⟩ := avxColumnF_ok o fma (dst := dd) hp
        refine ⟨r, r1, r2, fun p hp' => ?_⟩
        rw [r3 p hp']
        simp only [vvF32, if_pos havx]
        rw [← hvacc fma y p hy]
        rfl) hN.1 hs hd hw hdw hT
    exact ⟨_, e1, (raw_shape hN.1 hd e2 e4).1, (raw_shape hN.1 hd e2 e4).2, fun y x c hy hx hc => e3 y x c hy hx hc⟩
  by_cases hsse : cpu.sse41
  · have e : (fun b s dd ss w => columnF32X86 cpu fma fused o b s dd ss w) =
        fun b s dd ss w => sseColumnF o false b s dd ss w := by
      funext b s dd ss w; unfold columnF32X86; rw [if_neg havx, if_pos hsse]
    rw [e]
    obtain ⟨r, e1, e2, e3, e4⟩ := verticalG_raw (column := sseColumnF o false) (fw := fw)
      (V := fun y q => vvF32 cpu fma fused o fw y q (rowPos o.zero src.buffer (src.strideOf N)))
      (fun y dd hy hl hp => by
        obtain ⟨r, r1, r2, r3⟩ := sseColumnF_ok o false (dst := dd) hp
        refine ⟨r, r1, r2, fun p hp' => ?_⟩
        rw [r3 p hp']
        simp only [vvF32, if_neg havx, if_pos hsse]
        rw [← hvacc false y p hy]
        rfl) hN.1 hs hd hw hdw hT
    exact ⟨_, e1, (raw_shape hN.1 hd e2 e4).1, (raw_shape hN.1 hd e2 e4).2, fun y x c hy hx hc => e3 y x c hy hx hc⟩
  · have e : (fun b s dd ss w => columnF32X86 cpu fma fused o b s dd ss w) =
        fun b s dd ss w => columnFloat (o.scalar fused) b s dd ss w := by
      funext b s dd ss w; unfold columnF32X86; rw [if_neg havx, if_neg hsse]
    rw [e]
    obtain ⟨r, e1, e2, e3, e4⟩ := verticalFloat_raw (o.scalar fused) o.zero hN.1 hs hd hw hdw hT
    refine ⟨_, e1, (raw_shape hN.1 hd e2 e4).1, (raw_shape hN.1 hd e2 e4).2, fun y x c hy hx hc => ?_⟩
    refine (e3 y x c hy hx hc).trans ?_
    simp only [vvF32, if_neg havx, if_neg hsse, rowPos_pxD]
    rfl

/-- A horizontal pass whose handlers are known. -/
theorem horizontalX86_of {d0 : A} {N : ℕ} {src dst : Image A}
    {row : List A → List A → Option (List A)} {rows4 : List A → ℕ → List A → ℕ → Option (List A)}
    {v1 v4 : (ℕ → A) → ℕ → ℕ → A}
    (hN : 1 ≤ N) (hs : src.validate N = .ok ()) (hd : dst.validate N = .ok ())
    (hh : src.height = dst.height) (hsw : 0 < src.width) (hdw : 0 < dst.width)
    (o1 : HOK N (src.strideOf N) (dst.strideOf N) dst.width d0 v1 row)
    (o4 : H4OK N (src.strideOf N) (dst.strideOf N) dst.width d0 v4 rows4)
    (l4 : ∀ f g x c, x < dst.width → c < N → (∀ i, i < src.strideOf N → f i = g i) → v4 f x c = v4 g x c) :
    ∃ out, horizontalDispatch N src dst (some rows4) row = some out ∧ SameShape out dst ∧ PaddingKept N dst out ∧
      ∀ y x c, y < dst.height → x < dst.width → c < N → sample out.buffer (dst.strideOf N) N y x c =
        some ((if y < dst.height / 4 * 4 then v4 else v1) (rowPos d0 src.buffer (src.strideOf N) y) x c) := by
  obtain ⟨s1, s2, _⟩ := validate_ok hs
  obtain ⟨d1, d2, _⟩ := validate_ok hd
  rw [hh] at s1
  obtain ⟨r, g1, g2, g3, g4⟩ := horizontalDispatch_spec2 o1 o4 l4 rfl rfl
    (lt_of_lt_of_le (Nat.mul_pos hsw hN) s2) (lt_of_lt_of_le (Nat.mul_pos hdw hN) d2) d2 s1 d1
  refine ⟨_, g1, (raw_shape hN hd g2 g4).1, (raw_shape hN hd g2 g4).2, ?_⟩
  intro y x c hy hx hc
  unfold sample
  rw [g3 y x c hy hx hc, Nat.mul_comm 4]
  rfl

theorem kernel_wF (o : VecOps A) {fw : FilterWeights ℚ} {inn out : ℕ} (hT : ValidTable fw inn out) {x : ℕ} (hx : x < out)
    {k : ℕ} (hk : k < (fw.bound x).size) : wF o (fw.kernel x) k = o.weight (fw.weight x k) := by
  unfold wF
  rw [FilterWeights.kernel_getD fw x k 0 (by have := hT.size_le x hx; omega)]
  rfl

theorem horizontalX86_f32 (cpu : Cpu) (fma fused : Bool) (o : VecOps A) {N : ℕ} (hN : 1 ≤ N ∧ N ≤ 4) (src dst : Image A)
    (fw : FilterWeights ℚ) (hs : src.validate N = .ok ()) (hd : dst.validate N = .ok ())
    (hh : src.height = dst.height) (hsw : 0 < src.width) (hdw : 0 < dst.width)
    (hT : ValidTable fw src.width dst.width) :
    ∃ out, (formatF32X86 cpu fma fused o N).horizontal src dst fw = some out ∧ SameShape out dst ∧
      PaddingKept N dst out ∧
      ∀ y x c, y < dst.height → x < dst.width → c < N →
        sample out.buffer (dst.strideOf N) N y x c = some (hvF32 cpu fma fused o N fw dst.height y x c
          (rowPos o.zero src.buffer (src.strideOf N) y)) := by
  obtain ⟨s1, s2, _⟩ := validate_ok hs
  obtain ⟨d1, d2, _⟩ := validate_ok hd
  have kw := fun x (hx : x < dst.width) k (hk : k < (fw.bound x).size) => kernel_wF o hT hx hk
  have pos := fun x (hx : x < dst.width) => hT.size_pos x hx
  simp only [formatF32X86]
  by_cases c1 : N = 1 ∧ cpu.sse41
  · obtain ⟨rfl, hc⟩ := c1
    have e1 : (fun s ss dd ds => rows4F32X86 cpu fma fused o 1 s ss dd ds fw) =
        fun s ss dd ds => simdRows4 1 (planeSseF o fma 16 s) ss dd ds fw := by
      funext s ss dd ds; unfold rows4F32X86; rw [if_pos ⟨rfl, hc⟩]
    have e2 : (fun s dd => rowF32X86 cpu fma fused o 1 s dd fw) = fun s dd => simdRow 1 (planeSseF o fma 8 s) dd fw := by
      funext s dd; unfold rowF32X86; rw [if_pos ⟨rfl, hc⟩]
    rw [e1, e2]
    have k1 := simdRow_ok (d0 := o.zero) (h1 := planeSseF o fma 8) (V1 := fun w b f _ => planeH o fma true w b f)
      (fun s offs w b h => planeSseF_ok o fma true h) (fun w b f g c hb hc h => planeH_local o fma true w b f g hb h) hT s2 d2
    have k4 := simdRow_ok (d0 := o.zero) (h1 := planeSseF o fma 16) (V1 := fun w b f _ => planeH o fma false w b f)
      (fun s offs w b h => planeSseF_ok o fma false h) (fun w b f g c hb hc h => planeH_local o fma false w b f g hb h) hT s2 d2
    obtain ⟨out, g1, g2, g3, g4⟩ := horizontalX86_of (by norm_num) hs hd hh hsw hdw k1
      (simdRows4_ok (h4 := planeSseF o fma 16) (V4 := fun w b f _ => planeH o fma false w b f)
        (fun s offs w b h => planeSseF_ok o fma false h) hT s2 d2) k4.loc
    refine ⟨out, g1, g2, g3, fun y x c hy hx hc' => ?_⟩
    rw [g4 y x c hy hx hc']
    obtain rfl : c = 0 := by omega
    simp only [hvF32]
    congr 1
    rw [if_pos (show (True ∧ cpu.sse41 = true) from ⟨trivial, hc⟩)]
    by_cases hy4 : y < dst.height / 4 * 4
    · rw [if_pos hy4]
      simp only [hy4, not_true, decide_false]
      exact quadSum_congr (pos x hx) (fun _ _ => rfl) (fun k hk => kw x hx k hk)
    · rw [if_neg hy4]
      simp only [hy4, not_false_eq_true, decide_true]
      exact quadSum_congr (pos x hx) (fun _ _ => rfl) (fun k hk => kw x hx k hk)
  by_cases c3 : N = 3 ∧ cpu.sse41
  · obtain ⟨rfl, hc⟩ := c3
    have e1 : (fun s ss dd ds => rows4F32X86 cpu fma fused o 3 s ss dd ds fw) =
        fun s ss dd ds => simdRows4 3 (rgbSseF o fma s) ss dd ds fw := by
      funext s ss dd ds; unfold rows4F32X86; rw [if_neg c1, if_pos ⟨rfl, hc⟩]
    have e2 : (fun s dd => rowF32X86 cpu fma fused o 3 s dd fw) = fun s dd => simdRow 3 (rgbSseF o fma s) dd fw := by
      funext s dd; unfold rowF32X86; rw [if_neg c1, if_pos ⟨rfl, hc⟩]
    rw [e1, e2]
    have k1 := simdRow_ok (d0 := o.zero) (h1 := rgbSseF o fma) (V1 := seqH o fma 3)
      (fun s offs w b h => rgbSseF_ok o fma h) (fun w b f g c hb hc h => seqH_local o fma 3 w b f g c hc h) hT s2 d2
    obtain ⟨out, g1, g2, g3, g4⟩ := horizontalX86_of (by norm_num) hs hd hh hsw hdw k1
      (simdRows4_ok (h4 := rgbSseF o fma) (V4 := seqH o fma 3) (fun s offs w b h => rgbSseF_ok o fma h) hT s2 d2) k1.loc
    refine ⟨out, g1, g2, g3, fun y x c hy hx hc' => ?_⟩
    rw [g4 y x c hy hx hc', ite_self]
    simp only [hvF32]
    rw [if_neg c1, if_pos ⟨trivial, hc⟩]
    congr 1
    exact chain_congr (fun _ _ => rfl) (fun k hk => kw x hx k hk)
  by_cases c4 : N = 4 ∧ cpu.avx2
  · obtain ⟨rfl, hc⟩ := c4
    have e1 : (fun s ss dd ds => rows4F32X86 cpu fma fused o 4 s ss dd ds fw) =
        fun s ss dd ds => simdRows4 4 (rgbaAvxF o fma s) ss dd ds fw := by
      funext s ss dd ds; unfold rows4F32X86; rw [if_neg c1, if_neg c3, if_pos ⟨rfl, hc⟩]
    have e2 : (fun s dd => rowF32X86 cpu fma fused o 4 s dd fw) = fun s dd => simdRow 4 (rgbaAvxF o false s) dd fw := by
      funext s dd; unfold rowF32X86; rw [if_neg c1, if_neg c3, if_pos ⟨rfl, hc⟩]
    rw [e1, e2]
    have k1 := simdRow_ok (d0 := o.zero) (h1 := rgbaAvxF o false) (V1 := avxH o false)
      (fun s offs w b h => rgbaAvxF_ok o false h) (fun w b f g c hb hc h => avxH_local o false w b f g c hb hc h) hT s2 d2
    have k4 := simdRow_ok (d0 := o.zero) (h1 := rgbaAvxF o fma) (V1 := avxH o fma)
      (fun s offs w b h => rgbaAvxF_ok o fma h) (fun w b f g c hb hc h => avxH_local o fma w b f g c hb hc h) hT s2 d2
    obtain ⟨out, g1, g2, g3, g4⟩ := horizontalX86_of (by norm_num) hs hd hh hsw hdw k1
      (simdRows4_ok (h4 := rgbaAvxF o fma) (V4 := avxH o fma) (fun s offs w b h => rgbaAvxF_ok o fma h) hT s2 d2) k4.loc
    refine ⟨out, g1, g2, g3, fun y x c hy hx hc' => ?_⟩
    rw [g4 y x c hy hx hc']
    simp only [hvF32]
    congr 1
    rw [if_neg c1, if_neg c3, if_pos (show (True ∧ cpu.avx2 = true) from ⟨trivial, hc⟩)]
    by_cases hy4 : y < dst.height / 4 * 4
    · rw [if_pos hy4]
      simp only [hy4, not_true, decide_false, Bool.not_false, Bool.and_true]
      exact pairSum_congr (pos x hx) (fun _ _ => rfl) (fun k hk => kw x hx k hk)
    · rw [if_neg hy4]
      simp only [hy4, not_false_eq_true, decide_true, Bool.not_true, Bool.and_false]
      exact pairSum_congr (pos x hx) (fun _ _ => rfl) (fun k hk => kw x hx k hk)
  by_cases c5 : N = 4 ∧ cpu.sse41
  · obtain ⟨rfl, hc⟩ := c5
    have e1 : (fun s ss dd ds => rows4F32X86 cpu fma fused o 4 s ss dd ds fw) =
        fun s ss dd ds => simdRows4 4 (rgbaSseF o false s) ss dd ds fw := by
      funext s ss dd ds; unfold rows4F32X86; rw [if_neg c1, if_neg c3, if_neg c4, if_pos ⟨rfl, hc⟩]
    have e2 : (fun s dd => rowF32X86 cpu fma fused o 4 s dd fw) = fun s dd => simdRow 4 (rgbaSseF o false s) dd fw := by
      funext s dd; unfold rowF32X86; rw [if_neg c1, if_neg c3, if_neg c4, if_pos ⟨rfl, hc⟩]
    rw [e1, e2]
    have k1 := simdRow_ok (d0 := o.zero) (h1 := rgbaSseF o false) (V1 := seqH o false 4)
      (fun s offs w b h => rgbaSseF_ok o false h) (fun w b f g c hb hc h => seqH_local o false 4 w b f g c hc h) hT s2 d2
    obtain ⟨out, g1, g2, g3, g4⟩ := horizontalX86_of (by norm_num) hs hd hh hsw hdw k1
      (simdRows4_ok (h4 := rgbaSseF o false) (V4 := seqH o false 4) (fun s offs w b h => rgbaSseF_ok o false h) hT s2 d2) k1.loc
    refine ⟨out, g1, g2, g3, fun y x c hy hx hc' => ?_⟩
    rw [g4 y x c hy hx hc', ite_self]
    simp only [hvF32]
    rw [if_neg c1, if_neg c3, if_neg (show ¬ (True ∧ cpu.avx2 = true) from fun h => c4 ⟨rfl, h.2⟩), if_pos ⟨trivial, hc⟩]
    congr 1
    exact chain_congr (fun _ _ => rfl) (fun k hk => kw x hx k hk)
  · have e1 : (fun s ss dd ds => rows4F32X86 cpu fma fused o N s ss dd ds fw) =
        fun s ss dd ds => rows4Float (o.scalar fused) N s ss dd ds fw := by
      funext s ss dd ds; unfold rows4F32X86; rw [if_neg c1, if_neg c3, if_neg c4, if_neg c5]
    have e2 : (fun s dd => rowF32X86 cpu fma fused o N s dd fw) = fun s dd => rowFloat (o.scalar fused) N s dd fw := by
      funext s dd; unfold rowF32X86; rw [if_neg c1, if_neg c3, if_neg c4, if_neg c5]
    rw [e1, e2]
    obtain ⟨r, g1, g2, g3, g4⟩ := horizontalFloat_raw (o.scalar fused) o.zero hN hs hd hh hsw hdw hT
    refine ⟨_, g1, (raw_shape hN.1 hd g2 g4).1, (raw_shape hN.1 hd g2 g4).2, fun y x c hy hx hc => ?_⟩
    refine (g3 y x c hy hx hc).trans ?_
    simp only [hvF32, if_neg c1, if_neg c3, if_neg c4, if_neg c5, rowPos_pxD]
    rfl

theorem passFun_f32X86 (cpu : Cpu) (fma fused : Bool) (o : VecOps A) {N : ℕ} (hN : 1 ≤ N ∧ N ≤ 4) (d : ℕ) :
    PassFun N (formatF32X86 cpu fma fused o N) d (fun _ _ => True)
      (fun fw _ y q P => vvF32 cpu fma fused o fw y q P) (hvF32 cpu fma fused o N) where
  vertical := fun src dst fw hs hd hw hdw _ hT _ => verticalX86_f32 cpu fma fused o hN src dst fw hs hd hw hdw hT
  horizontal := fun src dst fw hs hd hh hsw hdw _ hT _ => horizontalX86_f32 cpu fma fused o hN src dst fw hs hd hh hsw hdw hT
  cong_h := by
    intro fw inn out H y x c p p' hT _ hx hc h
    have hn := hT.size_pos x hx
    have hin := hT.inside x hx
    have hs : ∀ k, k < (fw.bound x).size → p (((fw.bound x).start + k) * N + c) = p' (((fw.bound x).start + k) * N + c) := by
      intro k hk
      apply h
      have : ((fw.bound x).start + k + 1) * N ≤ inn * N := Nat.mul_le_mul_right _ (by omega)
      rw [Nat.add_mul _ 1] at this
      omega
    unfold hvF32
    dsimp only
    split_ifs
    · exact quadSum_congr hn hs (fun _ _ => rfl)
    · exact chain_congr hs (fun _ _ => rfl)
    · exact pairSum_congr hn hs (fun _ _ => rfl)
    · exact chain_congr hs (fun _ _ => rfl)
    · exact floatVal_congr hs (fun _ _ => rfl)

end PicScale
