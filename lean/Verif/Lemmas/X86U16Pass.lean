import Verif.Lemmas.SimdPassG
import Verif.Lemmas.X86U16F
import Verif.Lemmas.X86Fun
import Verif.Props.ResizeU16

/-! The passes of u16 images on x86, as functions of the picture. -/

namespace PicScale

open Spec Finset

/-! ### handlers as row operations -/

theorem rowFloat_ok {S A : Type} (o : FloatOps S A) (d0 : S) {N ss ds inn out : ℕ} {fw : FilterWeights ℚ}
    (hN : 1 ≤ N ∧ N ≤ 4) (hT : ValidTable fw inn out) (hss : inn * N ≤ ss) (hds : out * N ≤ ds) :
    HOK N ss ds out d0 (fun f x c => o.fin (floatVal o (fw.bound x).size
      (fun k => o.conv (f (((fw.bound x).start + k) * N + c))) (fun k => o.weight ((fw.kernel x).getD k 0))))
      (fun s d => rowFloat o N s d fw) := by
  have hkl : ∀ x, x < out → (fw.bound x).size ≤ (fw.kernel x).length := fun x hx => by
    rw [hT.shape.kernel_length hx]; exact hT.size_le x hx
  have hin : ∀ x, x < out → ((fw.bound x).start + (fw.bound x).size) * N ≤ ss :=
    fun x hx => le_trans (Nat.mul_le_mul_right _ (hT.inside x hx)) hss
  constructor
  · intro f g x c hx hc h
    congr 1
    apply floatVal_congr _ (fun _ _ => rfl)
    intro k hk
    rw [h]
    have := hin x hx
    have h2 : ((fw.bound x).start + k + 1) * N ≤ ((fw.bound x).start + (fw.bound x).size) * N :=
      Nat.mul_le_mul_right _ (by omega)
    rw [Nat.add_mul _ 1] at h2
    omega
  · intro s d hsl hdl
    obtain ⟨r, h1, h2, h3, h4⟩ := rowPass_spec (N := N) (pix := rowPixelSumsF o N s 0)
      (fin := o.fin) (dst := d) hT.shape (by omega)
      (val := fun x => hSumF o d0 N s 0 (fw.kernel x) (fw.bound x))
      (fun x hx => rowPixelSumsF_eq o d0 hN (by have := hin x hx; omega) (hkl x hx))
    refine ⟨r, h1, by omega, ?_, h4⟩
    intro x c hx hc
    rw [h3 x c hx hc]
    simp only [hSumF, Nat.zero_add]

theorem rows4Float_ok {S A : Type} (o : FloatOps S A) (d0 : S) {N ss ds inn out : ℕ} {fw : FilterWeights ℚ}
    (hN : 1 ≤ N ∧ N ≤ 4) (hT : ValidTable fw inn out) (hss : inn * N ≤ ss) (hds : out * N ≤ ds) :
    H4OK N ss ds out d0 (fun f x c => o.fin (floatVal o (fw.bound x).size
      (fun k => o.conv (f (((fw.bound x).start + k) * N + c))) (fun k => o.weight ((fw.kernel x).getD k 0))))
      (fun s ss d ds => rows4Float o N s ss d ds fw) := by
  have hkl : ∀ x, x < out → (fw.bound x).size ≤ (fw.kernel x).length := fun x hx => by
    rw [hT.shape.kernel_length hx]; exact hT.size_le x hx
  have hin : ∀ x, x < out → ((fw.bound x).start + (fw.bound x).size) * N ≤ ss :=
    fun x hx => le_trans (Nat.mul_le_mul_right _ (hT.inside x hx)) hss
  intro s d hsl hdl
  obtain ⟨r, h1, h2, h3, h4⟩ := rows4Pass_spec (N := N) (pix4 := rows4PixelSumsF o N s ss)
    (fin := o.fin) (dst := d) (stride := ds) hT.shape hdl hds
    (val := fun x q => hSumF o d0 N s (ss * q) (fw.kernel x) (fw.bound x))
    (fun x hx => rows4PixelSumsF_eq o d0 hN (by have := hin x hx; omega) (hkl x hx))
  refine ⟨r, h1, by omega, ?_, h4⟩
  intro q x c hq hx hc
  rw [h3 q x c hq hx hc]
  simp only [hSumF, Nat.add_assoc]

theorem simdRow_ok {S W : Type} {d0 : S} {N ss ds inn out : ℕ} {fw : FilterWeights W}
    {h1 : List S → List ℕ → List W → Bounds → Option (List (List S))}
    {V1 : List W → Bounds → (ℕ → S) → ℕ → S}
    (hspec1 : ∀ s offs w b, HPre N s offs w b →
      h1 s offs w b = some (offs.map fun o => (List.range N).map fun c => V1 w b (fun i => s.getD (o + i) d0) c))
    (hloc1 : ∀ w b f g c, 1 ≤ b.size → c < N → (∀ i, i < (b.start + b.size) * N → f i = g i) →
      V1 w b f c = V1 w b g c)
    (hT : ValidTable fw inn out) (hss : inn * N ≤ ss) (hds : out * N ≤ ds) :
    HOK N ss ds out d0 (fun f x c => V1 (fw.kernel x) (fw.bound x) f c) (fun s d => simdRow N (h1 s) d fw) := by
  have hkl : ∀ x, x < out → (fw.bound x).size ≤ (fw.kernel x).length := fun x hx => by
    rw [hT.shape.kernel_length hx]; exact hT.size_le x hx
  have hin : ∀ x, x < out → ((fw.bound x).start + (fw.bound x).size) * N ≤ ss :=
    fun x hx => le_trans (Nat.mul_le_mul_right _ (hT.inside x hx)) hss
  refine ⟨fun f g x c hx hc hfg => hloc1 _ _ _ _ _ (hT.size_pos x hx) hc
    (fun i hi => hfg i (lt_of_lt_of_le hi (hin x hx))), ?_⟩
  intro s d hsl hdl
  obtain ⟨r, h1, h2, h3, h4⟩ := rowPass_spec (N := N) (pix := fun w b => do
      let l ← h1 s [0] w b
      l[0]?)
    (fin := fun v : S => v) (dst := d) hT.shape (by omega)
    (val := fun x c => V1 (fw.kernel x) (fw.bound x) (fun i => s.getD i d0) c)
    (fun x hx => by
      have := hin x hx
      rw [hspec1 s [0] _ _ ⟨hT.size_pos x hx, hkl x hx, fun o ho => by
        rw [List.mem_singleton] at ho; omega⟩]
      simp)
  exact ⟨r, h1, by omega, h3, h4⟩

theorem simdRows4_ok {S W : Type} {d0 : S} {N ss ds inn out : ℕ} {fw : FilterWeights W}
    {h4 : List S → List ℕ → List W → Bounds → Option (List (List S))}
    {V4 : List W → Bounds → (ℕ → S) → ℕ → S}
    (hspec4 : ∀ s offs w b, HPre N s offs w b →
      h4 s offs w b = some (offs.map fun o => (List.range N).map fun c => V4 w b (fun i => s.getD (o + i) d0) c))
    (hT : ValidTable fw inn out) (hss : inn * N ≤ ss) (hds : out * N ≤ ds) :
    H4OK N ss ds out d0 (fun f x c => V4 (fw.kernel x) (fw.bound x) f c)
      (fun s ss d ds => simdRows4 N (h4 s) ss d ds fw) := by
  have hkl : ∀ x, x < out → (fw.bound x).size ≤ (fw.kernel x).length := fun x hx => by
    rw [hT.shape.kernel_length hx]; exact hT.size_le x hx
  have hin : ∀ x, x < out → ((fw.bound x).start + (fw.bound x).size) * N ≤ ss :=
    fun x hx => le_trans (Nat.mul_le_mul_right _ (hT.inside x hx)) hss
  intro s d hsl hdl
  obtain ⟨r, h1, h2, h3, h4⟩ := rows4Pass_spec (N := N) (pix4 := fun w b => do
      let l ← h4 s [0, ss, ss * 2, ss * 3] w b
      let r0 ← l[0]?
      let r1 ← l[1]?
      let r2 ← l[2]?
      let r3 ← l[3]?
      some (r0, r1, r2, r3))
    (fin := fun v : S => v) (dst := d) (stride := ds) hT.shape hdl hds
    (val := fun x q c => V4 (fw.kernel x) (fw.bound x) (fun i => s.getD (ss * q + i) d0) c)
    (fun x hx => by
      have := hin x hx
      rw [hspec4 s _ _ _ ⟨hT.size_pos x hx, hkl x hx, fun o ho => by
        simp only [List.mem_cons, List.not_mem_nil, or_false] at ho; omega⟩]
      simp)
  exact ⟨r, h1, by omega, h3, h4⟩

/-- A second handler on the same four rows overwrites what the first one wrote. -/
theorem H4OK.andThen {S : Type} {N ss ds out : ℕ} {d0 : S} {val val' : (ℕ → S) → ℕ → ℕ → S}
    {f g : List S → ℕ → List S → ℕ → Option (List S)} (hf : H4OK N ss ds out d0 val f)
    (hg : H4OK N ss ds out d0 val' g) :
    H4OK N ss ds out d0 val' (fun s ss d ds => (f s ss d ds).bind fun d => g s ss d ds) := by
  intro s d hs hd
  obtain ⟨r, h1, h2, _, h4⟩ := hf s d hs hd
  obtain ⟨r', g1, g2, g3, g4⟩ := hg s r hs h2
  refine ⟨r', ?_, g2, g3, ?_⟩
  · dsimp only
    rw [h1]
    exact g1
  · intro q p hq hp hps
    rw [g4 q p hq hp hps, h4 q p hq hp hps]

/-! ### vertical -/

/-- The window of destination row `y`, position `q`. -/
def colOf (fw : FilterWeights ℚ) (P : ℕ → ℕ → ℕ) (y q k : ℕ) : ℕ := P ((fw.bound y).start + k) q

/-- Weights of destination row `y`, as the column handlers get them. -/
def rowW {W : Type} (fw : FilterWeights W) (y : ℕ) : List W := fw.weights.drop (y * fw.alignedSize)

/-- Vertical pass of a u16 image on x86: destination row `y`, position `q` of rows of `width * N` samples. -/
def vvX86 (cpu : Cpu) (fma fused : Bool) (N d : ℕ) (fw : FilterWeights ℚ) (width y q : ℕ) (P : ℕ → ℕ → ℕ) : ℕ :=
  let s := colOf fw P y
  let n := (fw.bound y).size
  let w := rowW (numericalApproximation F32.rnd fw) y
  if 12 < d then
    if cpu.sse41 then
      columnVal 16 (width * N) (fun q => fpVal d (fpAcc fma (rowW fw y) (s q) n))
        (fun q => toMixedU16 d (fpTailAcc fused (rowW fw y) (s q) n)) q
    else v16 fused d fw y (s q)
  else if cpu.avx2 then
    columnVal 32 (width * N) (fun q => lb16Val d (acc16 w (s q) n)) (fun q => saturateNarrow (2 ^ d - 1) (accTail w (s q) n)) q
  else if cpu.sse41 then
    columnVal 16 (width * N) (fun q => lb16Val d (acc16 w (s q) n)) (fun q => saturateNarrow (2 ^ d - 1) (accTail w (s q) n)) q
  else
    saturateNarrow (2 ^ d - 1) (i32 (wsum n (fun k => (numericalApproximation F32.rnd fw).weight y k)
      (fun k => (s q k : ℤ))))

theorem colSamples_eq (fw : FilterWeights ℚ) (src : Image ℕ) (st y : ℕ) :
    colSamples src.buffer st (fw.bound y) = colOf fw (rowPos 0 src.buffer st) y := by
  funext p k
  unfold colSamples colOf rowPos
  rw [Nat.mul_comm]

theorem raw_shape {S : Type} {N : ℕ} {dst : Image S} {r : List S} (hN : 1 ≤ N) (hd : dst.validate N = .ok ())
    (h2 : r.length = dst.buffer.length)
    (h4 : ∀ y p, y < dst.height → dst.width * N ≤ p → p < dst.strideOf N →
        r[y * dst.strideOf N + p]? = dst.buffer[y * dst.strideOf N + p]?) :
    SameShape { dst with buffer := r } dst ∧ PaddingKept N dst { dst with buffer := r } :=
  ⟨⟨rfl, rfl, rfl, rfl, rfl, h2⟩, paddingKept_of hN hd h2 h4⟩

theorem verticalX86_u16 (cpu : Cpu) (fma fused : Bool) {N d : ℕ} (hN : 1 ≤ N ∧ N ≤ 4) (src dst : Image ℕ)
    (fw : FilterWeights ℚ) (hs : src.validate N = .ok ()) (hd : dst.validate N = .ok ())
    (hw : src.width = dst.width) (hdw : 0 < dst.width) (hbd : dst.bitDepth = d)
    (hT : ValidTable fw src.height dst.height) (hO : PlainShape fw dst.height) :
    ∃ out, (formatU16X86 cpu fma fused N).vertical src dst fw = some out ∧ SameShape out dst ∧
      PaddingKept N dst out ∧
      ∀ y x c, y < dst.height → x < dst.width → c < N →
        sample out.buffer (dst.strideOf N) N y x c = some (vvX86 cpu fma fused N d fw src.width y (x * N + c)
          (rowPos 0 src.buffer (src.strideOf N))) := by
  have hq : ValidTable (numericalApproximation F32.rnd fw) src.height dst.height := hO.q_valid hT
  simp only [formatU16X86, hbd]
  by_cases h12 : 12 < d
  · rw [if_pos h12]
    by_cases hsse : cpu.sse41
    · have e : (fun b s dd ss w => floatColumnX86 cpu fma fused d b s dd ss w) =
          fun b s dd ss w => sseColumnFp fma fused d b s dd ss w := by
        funext b s dd ss w; unfold floatColumnX86; rw [if_pos hsse]
      rw [e]
      obtain ⟨r, e1, e2, e3, e4⟩ := verticalG_raw (column := sseColumnFp fma fused d) (fw := fw)
        (V := fun y q => vvX86 cpu fma fused N d fw src.width y q (rowPos 0 src.buffer (src.strideOf N)))
        (fun y dd hy hl hp => by
          obtain ⟨r, r1, r2, r3⟩ := sseColumnFp_ok fma fused d (dst := dd) hp
          refine ⟨r, r1, r2, fun p hp' => ?_⟩
          rw [r3 p hp', hl, colSamples_eq]
          simp only [vvX86, if_pos h12, if_pos hsse, hw]
          rfl) hN.1 hs hd hw hdw hT
      exact ⟨_, e1, (raw_shape hN.1 hd e2 e4).1, (raw_shape hN.1 hd e2 e4).2, fun y x c hy hx hc => e3 y x c hy hx hc⟩
    · obtain ⟨out, o1, o2, o3, o4⟩ := (passOK_u16_raw hN fused d).vertical src dst fw hs hd hw hdw hbd hT hO (fun _ _ => trivial)
      have e : (fun b s dd ss w => floatColumnX86 cpu fma fused d b s dd ss w) =
          fun b s dd ss w => columnFloat (u16Ops F32.rnd fused d) b s dd ss w := by
        funext b s dd ss w; unfold floatColumnX86; rw [if_neg hsse]
      rw [e]
      simp only [formatU16, hbd, if_pos h12] at o1
      refine ⟨out, o1, o2, o3, fun y x c hy hx hc => ?_⟩
      rw [o4 y x c hy hx hc]
      simp only [vvX86, if_pos h12, if_neg hsse]
      congr 2
      funext k
      unfold colOf
      rw [rowPos_pxD]
      rfl
  · rw [if_neg h12]
    by_cases havx : cpu.avx2
    · have e : (fun b s dd ss w => fixedColumnX86 cpu d b s dd ss w) =
          fun b s dd ss w => avxColumnLb d b s dd ss w := by
        funext b s dd ss w; unfold fixedColumnX86; rw [if_pos havx]
      rw [e]
      obtain ⟨r, e1, e2, e3, e4⟩ := verticalG_raw (column := avxColumnLb d) (fw := numericalApproximation F32.rnd fw)
        (V := fun y q => vvX86 cpu fma fused N d fw src.width y q (rowPos 0 src.buffer (src.strideOf N)))
        (fun y dd hy hl hp => by
          obtain ⟨r, r1, r2, r3⟩ := avxColumnLb_ok d (dst := dd) hp
          refine ⟨r, r1, r2, fun p hp' => ?_⟩
          rw [r3 p hp', hl, na_bound, colSamples_eq]
          simp only [vvX86, if_neg h12, if_pos havx, hw]
          rfl) hN.1 hs hd hw hdw hq
      exact ⟨_, e1, (raw_shape hN.1 hd e2 e4).1, (raw_shape hN.1 hd e2 e4).2, fun y x c hy hx hc => e3 y x c hy hx hc⟩
    by_cases hsse : cpu.sse41
    · have e : (fun b s dd ss w => fixedColumnX86 cpu d b s dd ss w) =
          fun b s dd ss w => sseColumnLb d b s dd ss w := by
        funext b s dd ss w; unfold fixedColumnX86; rw [if_neg havx, if_pos hsse]
      rw [e]
      obtain ⟨r, e1, e2, e3, e4⟩ := verticalG_raw (column := sseColumnLb d) (fw := numericalApproximation F32.rnd fw)
        (V := fun y q => vvX86 cpu fma fused N d fw src.width y q (rowPos 0 src.buffer (src.strideOf N)))
        (fun y dd hy hl hp => by
          obtain ⟨r, r1, r2, r3⟩ := sseColumnLb_ok d (dst := dd) hp
          refine ⟨r, r1, r2, fun p hp' => ?_⟩
          rw [r3 p hp', hl, na_bound, colSamples_eq]
          simp only [vvX86, if_neg h12, if_neg havx, if_pos hsse, hw]
          rfl) hN.1 hs hd hw hdw hq
      exact ⟨_, e1, (raw_shape hN.1 hd e2 e4).1, (raw_shape hN.1 hd e2 e4).2, fun y x c hy hx hc => e3 y x c hy hx hc⟩
    · obtain ⟨out, o1, o2, o3, o4⟩ := (passOK_u16_raw hN fused d).vertical src dst fw hs hd hw hdw hbd hT hO (fun _ _ => trivial)
      have e : (fun b s dd ss w => fixedColumnX86 cpu d b s dd ss w) =
          fun b s dd ss w => columnFixed (2 ^ d - 1) b s dd ss w := by
        funext b s dd ss w; unfold fixedColumnX86; rw [if_neg havx, if_neg hsse]
      rw [e]
      simp only [formatU16, hbd, if_neg h12] at o1
      refine ⟨out, o1, o2, o3, fun y x c hy hx hc => ?_⟩
      rw [o4 y x c hy hx hc]
      simp only [vvX86, if_neg h12, if_neg havx, if_neg hsse, colOf, rowPos_pxD]
      rfl

/-! ### horizontal -/

/-- Horizontal pass of a u16 image on x86: row `y` of `H`, pixel `x`, channel `c`. -/
def hvX86 (cpu : Cpu) (fma fused : Bool) (N d : ℕ) (fw : FilterWeights ℚ) (H y x c : ℕ) (p : ℕ → ℕ) : ℕ :=
  let s := fun k => p (((fw.bound x).start + k) * N + c)
  if 12 < d then
    if N = 4 ∧ cpu.sse41 ∧ ¬ y < H / 4 * 4 then fpH fma d (fw.kernel x) (fw.bound x) p c
    else h16 fused d fw x s
  else if N = 4 ∧ (cpu.avx2 ∨ cpu.sse41) then
    lbH d ((numericalApproximation F32.rnd fw).kernel x) (fw.bound x) p c
  else
    saturateNarrow (2 ^ d - 1) (i32 (16384 + wsum (fw.bound x).size
      (fun k => (numericalApproximation F32.rnd fw).weight x k) (fun k => (s k : ℤ))))

theorem fpTaps_lt {n : ℕ} (hn : 1 ≤ n) : ∀ t ∈ fpTaps n, t.1 < n ∧ t.2 < n := by
  intro t ht
  unfold fpTaps at ht
  simp only [List.mem_append, List.mem_flatMap, List.mem_range] at ht
  rcases ht with ((⟨i, hi, ht⟩ | ht) | ht) | ht
  · unfold taps8 at ht
    simp only [List.mem_cons, List.not_mem_nil, or_false] at ht
    rcases ht with rfl | rfl | rfl | rfl | rfl | rfl | rfl | rfl <;> constructor <;> dsimp only <;> omega
  · split_ifs at ht
    · unfold taps4 at ht
      simp only [List.mem_cons, List.not_mem_nil, or_false] at ht
      rcases ht with rfl | rfl | rfl | rfl <;> constructor <;> dsimp only <;> omega
    · simp at ht
  · split_ifs at ht <;> first
      | (unfold taps2 at ht
         simp only [List.mem_cons, List.not_mem_nil, or_false] at ht
         rcases ht with rfl | rfl <;> constructor <;> dsimp only <;> omega)
      | simp at ht
  · unfold taps1 at ht
    rw [List.mem_map] at ht
    obtain ⟨k, hk, rfl⟩ := ht
    rw [List.mem_range] at hk
    constructor <;> dsimp only <;> omega

theorem fpFold_congr (fma : Bool) {w w' : List ℚ} {s s' : ℕ → ℕ} (L : List (ℕ × ℕ))
    (h : ∀ t ∈ L, w.getD t.1 0 = w'.getD t.1 0 ∧ s t.2 = s' t.2) : fpFold fma w s L = fpFold fma w' s' L := by
  induction L using List.reverseRecOn with
  | nil => rfl
  | append_singleton L t ih =>
    rw [fpFold_snoc, fpFold_snoc, ih (fun u hu => h u (List.mem_append_left _ hu)),
      (h t (by simp)).1, (h t (by simp)).2]

theorem fpH_local (fma : Bool) (d : ℕ) (w : List ℚ) (b : Bounds) (f g : ℕ → ℕ) (c : ℕ) (hb : 1 ≤ b.size) (hc : c < 4)
    (h : ∀ i, i < (b.start + b.size) * 4 → f i = g i) : fpH fma d w b f c = fpH fma d w b g c := by
  unfold fpH
  rw [fpFold_congr fma (w' := w) (s' := fun k => g ((b.start + k) * 4 + c))]
  intro t ht
  refine ⟨rfl, h _ ?_⟩
  have := (fpTaps_lt hb t ht).2
  have : (b.start + t.2 + 1) * 4 ≤ (b.start + b.size) * 4 := Nat.mul_le_mul_right _ (by omega)
  omega

theorem lbH_hspec {d : ℕ} (fw : FilterWeights ℤ) {src dst : Image ℕ}
    {h1 h4 : List ℕ → List ℕ → List ℤ → Bounds → Option (List (List ℕ))}
    (hspec1 : ∀ s offs w b, HPre 4 s offs w b →
      h1 s offs w b = some (offs.map fun o => (List.range 4).map fun c => lbH d w b (fun i => s.getD (o + i) 0) c))
    (hspec4 : ∀ s offs w b, HPre 4 s offs w b →
      h4 s offs w b = some (offs.map fun o => (List.range 4).map fun c => lbH d w b (fun i => s.getD (o + i) 0) c))
    (hs : src.validate 4 = .ok ()) (hd : dst.validate 4 = .ok ())
    (hh : src.height = dst.height) (hsw : 0 < src.width) (hdw : 0 < dst.width)
    (hT : ValidTable fw src.width dst.width) :
    ∃ out, horizontalDispatch 4 src dst (some fun s ss d ds => simdRows4 4 (h4 s) ss d ds fw)
        (fun s d => simdRow 4 (h1 s) d fw) = some out ∧ SameShape out dst ∧ PaddingKept 4 dst out ∧
      ∀ y x c, y < dst.height → x < dst.width → c < 4 → sample out.buffer (dst.strideOf 4) 4 y x c =
        some (lbH d (fw.kernel x) (fw.bound x) (rowPos 0 src.buffer (src.strideOf 4) y) c) := by
  obtain ⟨r, e1, e2, e3, e4⟩ := horizontalG_raw hspec1 hspec4
    (fun w b f g c _ hc h => lbH_local d w b f g c hc h) (fun w b f g c _ hc h => lbH_local d w b f g c hc h)
    (by norm_num) hs hd hh hsw hdw hT
  refine ⟨_, e1, (raw_shape (by norm_num) hd e2 e4).1, (raw_shape (by norm_num) hd e2 e4).2, ?_⟩
  intro y x c hy hx hc
  unfold sample
  rw [e3 y x c hy hx hc, ite_self]
  rfl

theorem u16_floatVal (fused : Bool) {d : ℕ} (h12 : 12 < d) {fw : FilterWeights ℚ} {inn out : ℕ}
    (hT : ValidTable fw inn out) {x : ℕ} (hx : x < out) (s : ℕ → ℕ) :
    (u16Ops F32.rnd fused d).fin (floatVal (u16Ops F32.rnd fused d) (fw.bound x).size
      (fun k => (u16Ops F32.rnd fused d).conv (s k)) (fun k => (u16Ops F32.rnd fused d).weight ((fw.kernel x).getD k 0))) =
    h16 fused d fw x s := by
  rw [floatVal_leftSum (mlaf_law rnd_rnd fused) (hT.size_pos x hx)]
  simp only [h16, if_pos h12, u16Ops, toMixedU16_eq]
  congr 1
  refine leftSum_congr (hT.size_pos x hx) (fun _ _ => rfl) (fun k hk => ?_)
  exact FilterWeights.kernel_getD fw x k 0 (by have := hT.size_le x hx; omega)

theorem horizontalX86_u16 (cpu : Cpu) (fma fused : Bool) {N d : ℕ} (hN : 1 ≤ N ∧ N ≤ 4) (src dst : Image ℕ)
    (fw : FilterWeights ℚ) (hs : src.validate N = .ok ()) (hd : dst.validate N = .ok ())
    (hh : src.height = dst.height) (hsw : 0 < src.width) (hdw : 0 < dst.width) (hbd : dst.bitDepth = d)
    (hT : ValidTable fw src.width dst.width) (hO : PlainShape fw dst.width) :
    ∃ out, (formatU16X86 cpu fma fused N).horizontal src dst fw = some out ∧ SameShape out dst ∧
      PaddingKept N dst out ∧
      ∀ y x c, y < dst.height → x < dst.width → c < N →
        sample out.buffer (dst.strideOf N) N y x c = some (hvX86 cpu fma fused N d fw dst.height y x c
          (rowPos 0 src.buffer (src.strideOf N) y)) := by
  have hq : ValidTable (numericalApproximation F32.rnd fw) src.width dst.width := hO.q_valid hT
  simp only [formatU16X86, hbd]
  by_cases h12 : 12 < d
  · rw [if_pos h12]
    by_cases hsse : N = 4 ∧ cpu.sse41
    · obtain ⟨rfl, hsse⟩ := hsse
      obtain ⟨s1, s2, _⟩ := validate_ok hs
      obtain ⟨d1, d2, _⟩ := validate_ok hd
      rw [hh] at s1
      have e1 : (fun s ss dd ds => floatRows4X86 cpu fma fused 4 d s ss dd ds fw) =
          fun s ss dd ds => (simdRows4 4 (rgbaSseFp fma d s) ss dd ds fw).bind fun dd =>
            rows4Float (u16Ops F32.rnd fused d) 4 s ss dd ds fw := by
        funext s ss dd ds; unfold floatRows4X86; rw [if_pos ⟨rfl, hsse⟩]; rfl
      have e2 : (fun s dd => floatRowX86 cpu fma fused 4 d s dd fw) =
          fun s dd => simdRow 4 (rgbaSseFp fma d s) dd fw := by
        funext s dd; unfold floatRowX86; rw [if_pos ⟨rfl, hsse⟩]
      rw [e1, e2]
      have f4 := rows4Float_ok (u16Ops F32.rnd fused d) 0 (by norm_num) hT s2 d2
      have f1 := rowFloat_ok (u16Ops F32.rnd fused d) 0 (by norm_num) hT s2 d2
      obtain ⟨r, g1, g2, g3, g4⟩ := horizontalDispatch_spec2
        (simdRow_ok (h1 := rgbaSseFp fma d) (fun s offs w b h => rgbaSseFp_ok fma d h)
          (fun w b f g c hb hc h => fpH_local fma d w b f g c hb hc h) hT s2 d2)
        ((simdRows4_ok (h4 := rgbaSseFp fma d) (fun s offs w b h => rgbaSseFp_ok fma d h) hT s2 d2).andThen f4)
        f1.loc rfl rfl (by omega) (by omega) d2 s1 d1
      refine ⟨_, g1, (raw_shape (by norm_num) hd g2 g4).1, (raw_shape (by norm_num) hd g2 g4).2, ?_⟩
      intro y x c hy hx hc
      unfold sample
      rw [g3 y x c hy hx hc]
      simp only [hvX86, if_pos h12]
      by_cases hy4 : y < 4 * (dst.height / 4)
      · rw [if_pos hy4, if_neg (by omega), ← u16_floatVal fused h12 hT hx]
        rfl
      · rw [if_neg hy4, if_pos ⟨trivial, hsse, by omega⟩]
        rfl
    · obtain ⟨out, o1, o2, o3, o4⟩ := (passOK_u16_raw hN fused d).horizontal src dst fw hs hd hh hsw hdw hbd hT hO (fun _ _ => trivial)
      have e1 : (fun s ss dd ds => floatRows4X86 cpu fma fused N d s ss dd ds fw) =
          fun s ss dd ds => rows4Float (u16Ops F32.rnd fused d) N s ss dd ds fw := by
        funext s ss dd ds; unfold floatRows4X86; rw [if_neg hsse]; rfl
      have e2 : (fun s dd => floatRowX86 cpu fma fused N d s dd fw) =
          fun s dd => rowFloat (u16Ops F32.rnd fused d) N s dd fw := by
        funext s dd; unfold floatRowX86; rw [if_neg hsse]
      rw [e1, e2]
      simp only [formatU16, hbd, if_pos h12] at o1
      refine ⟨out, o1, o2, o3, fun y x c hy hx hc => ?_⟩
      rw [o4 y x c hy hx hc]
      simp only [hvX86, if_pos h12]
      rw [if_neg (by tauto)]
      simp only [rowPos_pxD]
      rfl
  · rw [if_neg h12]
    by_cases havx : N = 4 ∧ cpu.avx2
    · obtain ⟨rfl, havx⟩ := havx
      have e1 : (fun s ss dd ds => fixedRows4X86 cpu 4 d s ss dd ds (numericalApproximation F32.rnd fw)) =
          fun s ss dd ds => simdRows4 4 (rgbaAvxLb16 true d s) ss dd ds (numericalApproximation F32.rnd fw) := by
        funext s ss dd ds; unfold fixedRows4X86; rw [if_pos ⟨rfl, havx⟩]
      have e2 : (fun s dd => fixedRowX86 cpu 4 d s dd (numericalApproximation F32.rnd fw)) =
          fun s dd => simdRow 4 (rgbaAvxLb16 false d s) dd (numericalApproximation F32.rnd fw) := by
        funext s dd; unfold fixedRowX86; rw [if_pos ⟨rfl, havx⟩]
      rw [e1, e2]
      obtain ⟨out, o1, o2, o3, o4⟩ := lbH_hspec (d := d) _ (h1 := rgbaAvxLb16 false d) (h4 := rgbaAvxLb16 true d)
        (fun s offs w b h => rgbaAvxLb16_ok false d h) (fun s offs w b h => rgbaAvxLb16_ok true d h) hs hd hh hsw hdw hq
      refine ⟨out, o1, o2, o3, fun y x c hy hx hc => ?_⟩
      rw [o4 y x c hy hx hc]
      simp only [hvX86, if_neg h12]
      rw [if_pos ⟨trivial, Or.inl havx⟩]
      rfl
    by_cases hsse : N = 4 ∧ cpu.sse41
    · obtain ⟨rfl, hsse⟩ := hsse
      have e1 : (fun s ss dd ds => fixedRows4X86 cpu 4 d s ss dd ds (numericalApproximation F32.rnd fw)) =
          fun s ss dd ds => simdRows4 4 (rgbaSseLb16 d s) ss dd ds (numericalApproximation F32.rnd fw) := by
        funext s ss dd ds; unfold fixedRows4X86; rw [if_neg havx, if_pos ⟨rfl, hsse⟩]
      have e2 : (fun s dd => fixedRowX86 cpu 4 d s dd (numericalApproximation F32.rnd fw)) =
          fun s dd => simdRow 4 (rgbaSseLb16 d s) dd (numericalApproximation F32.rnd fw) := by
        funext s dd; unfold fixedRowX86; rw [if_neg havx, if_pos ⟨rfl, hsse⟩]
      rw [e1, e2]
      obtain ⟨out, o1, o2, o3, o4⟩ := lbH_hspec (d := d) _ (h1 := rgbaSseLb16 d) (h4 := rgbaSseLb16 d)
        (fun s offs w b h => rgbaSseLb16_ok d h) (fun s offs w b h => rgbaSseLb16_ok d h) hs hd hh hsw hdw hq
      refine ⟨out, o1, o2, o3, fun y x c hy hx hc => ?_⟩
      rw [o4 y x c hy hx hc]
      simp only [hvX86, if_neg h12]
      rw [if_pos ⟨trivial, Or.inr hsse⟩]
      rfl
    · obtain ⟨out, o1, o2, o3, o4⟩ := (passOK_u16_raw hN fused d).horizontal src dst fw hs hd hh hsw hdw hbd hT hO (fun _ _ => trivial)
      have e1 : (fun s ss dd ds => fixedRows4X86 cpu N d s ss dd ds (numericalApproximation F32.rnd fw)) =
          fun s ss dd ds => rows4Fixed N (2 ^ d - 1) s ss dd ds (numericalApproximation F32.rnd fw) := by
        funext s ss dd ds; unfold fixedRows4X86; rw [if_neg havx, if_neg hsse]
      have e2 : (fun s dd => fixedRowX86 cpu N d s dd (numericalApproximation F32.rnd fw)) =
          fun s dd => rowFixed N (2 ^ d - 1) s dd (numericalApproximation F32.rnd fw) := by
        funext s dd; unfold fixedRowX86; rw [if_neg havx, if_neg hsse]
      rw [e1, e2]
      simp only [formatU16, hbd, if_neg h12] at o1
      refine ⟨out, o1, o2, o3, fun y x c hy hx hc => ?_⟩
      rw [o4 y x c hy hx hc]
      simp only [hvX86, if_neg h12]
      rw [if_neg (by tauto)]
      simp only [rowPos_pxD]
      rfl

theorem passFun_u16X86 (cpu : Cpu) (fma fused : Bool) {N : ℕ} (hN : 1 ≤ N ∧ N ≤ 4) (d : ℕ) :
    PassFun N (formatU16X86 cpu fma fused N) d (fun fw out => PlainShape fw out)
      (vvX86 cpu fma fused N d) (hvX86 cpu fma fused N d) where
  vertical := fun src dst fw hs hd hw hdw hbd hT hO =>
    verticalX86_u16 cpu fma fused hN src dst fw hs hd hw hdw hbd hT hO
  horizontal := fun src dst fw hs hd hh hsw hdw hbd hT hO =>
    horizontalX86_u16 cpu fma fused hN src dst fw hs hd hh hsw hdw hbd hT hO
  cong_h := by
    intro fw inn out H y x c p p' hT _ hx hc h
    have hn := hT.size_pos x hx
    have hin := hT.inside x hx
    have hs : ∀ k, k < (fw.bound x).size → p (((fw.bound x).start + k) * N + c) = p' (((fw.bound x).start + k) * N + c) := by
      intro k hk
      apply h
      have : ((fw.bound x).start + k + 1) * N ≤ inn * N := Nat.mul_le_mul_right _ (by omega)
      rw [Nat.add_mul _ 1] at this
      omega
    have hall : ∀ i, i < ((fw.bound x).start + (fw.bound x).size) * N → p i = p' i := fun i hi =>
      h i (lt_of_lt_of_le hi (Nat.mul_le_mul_right _ hin))
    unfold hvX86
    dsimp only
    split_ifs with h1 h2 h3
    · obtain ⟨rfl, _⟩ := h2
      exact fpH_local fma d _ _ _ _ c hn hc hall
    · simp only [h16, if_pos h1]
      congr 1
      exact leftSum_congr hn (fun k hk => by rw [hs k hk]) (fun _ _ => rfl)
    · obtain ⟨rfl, _⟩ := h3
      exact lbH_local d _ _ _ _ c hc hall
    · congr 3
      exact wsum_congr (fun _ _ => rfl) fun k hk => by rw [hs k hk]

end PicScale
