import Verif.Lemmas.F16
import Verif.Lemmas.X86F32Pass
import Verif.SpecF16

/-! The passes of f16 images, as functions of the picture. -/

namespace PicScale

open Spec

variable {H A : Type}

/-! ### shapes -/

theorem paddingMapped_of {S : Type} {N : ℕ} {pad : S → S} {dst : Image S} {r : List S} (hN : 1 ≤ N)
    (hd : dst.validate N = .ok ()) (hl : r.length = dst.buffer.length)
    (h : ∀ y p, y < dst.height → dst.width * N ≤ p → p < dst.strideOf N →
        r[y * dst.strideOf N + p]? = dst.buffer[y * dst.strideOf N + p]?.map pad) :
    PaddingMapped N pad dst { dst with buffer := r } := by
  intro p hp
  obtain ⟨d1, d2, _⟩ := validate_ok hd
  dsimp only
  by_cases hlt : p < dst.buffer.length
  · rcases Nat.eq_zero_or_pos (dst.strideOf N) with hz | hpos
    · rw [d1, hz] at hlt; simp at hlt
    · have hy : p / dst.strideOf N < dst.height := by
        rw [Nat.div_lt_iff_lt_mul hpos, ← d1]; exact hlt
      have hdm : p / dst.strideOf N * dst.strideOf N + p % dst.strideOf N = p := Nat.div_add_mod' _ _
      have hm := Nat.mod_lt p hpos
      have := h (p / dst.strideOf N) (p % dst.strideOf N) hy (by
        by_contra hc
        apply hp
        refine ⟨p / dst.strideOf N, (p % dst.strideOf N) / N, (p % dst.strideOf N) % N, hy, ?_,
          Nat.mod_lt _ hN, ?_⟩
        · rw [Nat.div_lt_iff_lt_mul hN]; omega
        · rw [Nat.add_assoc, Nat.div_add_mod', hdm]) hm
      rw [hdm] at this
      exact this
  · rw [List.getElem?_eq_none (by omega), List.getElem?_eq_none (by omega)]
    rfl

theorem raw_shapep {S : Type} {N : ℕ} {pad : S → S} {dst : Image S} {r : List S} (hN : 1 ≤ N)
    (hd : dst.validate N = .ok ()) (h2 : r.length = dst.buffer.length)
    (h4 : ∀ y p, y < dst.height → dst.width * N ≤ p → p < dst.strideOf N →
        r[y * dst.strideOf N + p]? = dst.buffer[y * dst.strideOf N + p]?.map pad) :
    SameShape { dst with buffer := r } dst ∧ PaddingMapped N pad dst { dst with buffer := r } :=
  ⟨⟨rfl, rfl, rfl, rfl, rfl, h2⟩, paddingMapped_of hN hd h2 h4⟩

/-! ### portable handlers -/

section portable

variable (o : HalfOps H A) (fused : Bool) {N ss ds inn out : ℕ} {fw : FilterWeights ℚ}

/-- One destination sample of the portable code. -/
def portH (o : HalfOps H A) (fused : Bool) (N : ℕ) (fw : FilterWeights ℚ) (f : ℕ → H) (x c : ℕ) : H :=
  o.narrow (floatVal (o.arith.scalar fused) (fw.bound x).size
    (fun k => o.widen (f (((fw.bound x).start + k) * N + c))) (fun k => o.arith.weight ((fw.kernel x).getD k 0)))

theorem portH_loc (hT : ValidTable fw inn out) (hss : inn * N ≤ ss) (f g : ℕ → H) (x c : ℕ) (hx : x < out) (hc : c < N)
    (h : ∀ i, i < ss → f i = g i) : portH o fused N fw f x c = portH o fused N fw g x c := by
  unfold portH
  congr 1
  apply floatVal_congr _ (fun _ _ => rfl)
  intro k hk
  rw [h]
  have hin := hT.inside x hx
  have : ((fw.bound x).start + k + 1) * N ≤ inn * N := Nat.mul_le_mul_right _ (by omega)
  rw [Nat.add_mul _ 1] at this
  omega

theorem rowHalf_ok (hN : 1 ≤ N ∧ N ≤ 4) (hT : ValidTable fw inn out) (hss : inn * N ≤ ss) (hds : out * N ≤ ds) :
    HOKp N ss ds out o.zeroH (fun _ => o.narrow o.arith.zero) (portH o fused N fw) (fun s d => rowHalf o fused N s d fw) := by
  have base := rowFloat_ok (o.arith.scalar fused) o.arith.zero hN hT hss hds
  refine ⟨portH_loc o fused hT hss, ?_⟩
  intro s d hs hd
  obtain ⟨r, h1, h2, h3, h4⟩ := base.one (s.map o.widen) (List.replicate d.length o.arith.zero) (by simpa using hs)
    (by simpa using hd)
  refine ⟨r.map o.narrow, ?_, by simpa using h2, ?_, ?_⟩
  · unfold rowHalf
    rw [h1]
    rfl
  · intro x c hx hc
    rw [List.getElem?_map, h3 x c hx hc, Option.map_some]
    refine congrArg some ?_
    unfold portH
    refine congrArg o.narrow ?_
    apply floatVal_congr _ (fun _ _ => rfl)
    intro k hk
    have hin := hT.inside x hx
    have : ((fw.bound x).start + k + 1) * N ≤ inn * N := Nat.mul_le_mul_right _ (by omega)
    rw [Nat.add_mul _ 1] at this
    exact getD_map' o.widen s _ _ o.zeroH (by omega)
  · intro p hp
    rw [List.getElem?_map, h4 p hp, List.getElem?_replicate]
    by_cases hl : p < d.length
    · rw [if_pos hl, List.getElem?_eq_getElem hl]
      rfl
    · rw [if_neg hl, List.getElem?_eq_none (by omega)]
      rfl

theorem rows4Half_ok (hN : 1 ≤ N ∧ N ≤ 4) (hT : ValidTable fw inn out) (hss : inn * N ≤ ss) (hds : out * N ≤ ds) :
    H4OKp N ss ds out o.zeroH (fun _ => o.narrow o.arith.zero) (portH o fused N fw)
      (fun s ss d ds => rows4Half o fused N s ss d ds fw) := by
  have base := rows4Float_ok (o.arith.scalar fused) o.arith.zero hN hT hss hds
  intro s d hs hd
  obtain ⟨r, h1, h2, h3, h4⟩ := base (s.map o.widen) (List.replicate d.length o.arith.zero) (by simpa using hs)
    (by simpa using hd)
  refine ⟨r.map o.narrow, ?_, by simpa using h2, ?_, ?_⟩
  · dsimp only at h1 ⊢
    unfold rows4Half
    rw [h1]
    rfl
  · intro q x c hq hx hc
    rw [List.getElem?_map, h3 q x c hq hx hc, Option.map_some]
    refine congrArg some ?_
    unfold portH
    refine congrArg o.narrow ?_
    apply floatVal_congr _ (fun _ _ => rfl)
    intro k hk
    have hin := hT.inside x hx
    have : ((fw.bound x).start + k + 1) * N ≤ inn * N := Nat.mul_le_mul_right _ (by omega)
    rw [Nat.add_mul _ 1] at this
    have hq' : ss * q + ss ≤ ss * 4 := by
      have := Nat.mul_le_mul_left ss (show q + 1 ≤ 4 from hq)
      rwa [Nat.mul_add, Nat.mul_one] at this
    exact getD_map' o.widen s _ _ o.zeroH (by omega)
  · intro q p hq hp hps
    have hq' : ds * q + ds ≤ ds * 4 := by
      have := Nat.mul_le_mul_left ds (show q + 1 ≤ 4 from hq)
      rwa [Nat.mul_add, Nat.mul_one] at this
    have hl : q * ds + p < d.length := by rw [Nat.mul_comm q]; omega
    rw [List.getElem?_map, h4 q p hq hp hps, List.getElem?_replicate, if_pos hl, List.getElem?_eq_getElem hl]
    rfl

theorem columnHalf_ok {src dst : List H} {stride : ℕ} {b : Bounds} {w : List ℚ} (h : VPre src stride w b dst.length) :
    ∃ r, columnHalf o fused b src dst stride w = some r ∧ r.length = dst.length ∧
      ∀ p, p < dst.length → r[p]? = some (o.narrow (floatVal (o.arith.scalar fused) b.size
        (fun k => o.widen (src.getD ((b.start + k) * stride + p) o.zeroH)) (fun k => o.arith.weight (w.getD k 0)))) := by
  obtain ⟨r, h1, h2, h3⟩ := columnFloat_spec (o.arith.scalar fused) o.arith.zero (src := src.map o.widen)
    (dst := List.replicate dst.length o.arith.zero) (stride := stride) h.weights
    (by rw [List.length_map, List.length_replicate]; exact h.rows)
  rw [List.length_replicate] at h2 h3
  refine ⟨r.map o.narrow, ?_, by simpa using h2, ?_⟩
  · unfold columnHalf
    rw [h1]
    rfl
  · intro p hp
    rw [List.getElem?_map, h3 p hp, Option.map_some]
    refine congrArg some ?_
    refine congrArg o.narrow ?_
    apply floatVal_congr _ (fun _ _ => rfl)
    intro k hk
    have := h.row hk
    rw [Nat.mul_comm] at this
    rw [getD_map' o.widen src _ _ o.zeroH (by omega)]
    rfl

end portable

/-! ### value functions -/

/-- Vertical pass: destination row `y`, position `q`. -/
def vvF16 (cpu : HalfCpu) (o : HalfOps H A) (fw : FilterWeights ℚ) (y q : ℕ) (P : ℕ → ℕ → H) : H :=
  let p := fun k => P ((fw.bound y).start + k) q
  let w := fun k => o.arith.weight (fw.weight y k)
  let n := (fw.bound y).size
  if cpu.avx2 ∧ cpu.f16c then o.narrow (chain (o.arith.mulAdd cpu.fma) o.arith.zero (fun k => o.widen (p k)) w n)
  else if cpu.sse41 then
    o.narrowX cpu.f16c (chain (o.arith.mulAdd false) o.arith.zero (fun k => o.widenX cpu.f16c (p k)) w n)
  else o.narrow (floatVal (o.arith.scalar cpu.fused) n (fun k => o.widen (p k)) w)

/-- Horizontal pass: pixel `x`, channel `c` of a row. -/
def hvF16 (cpu : HalfCpu) (o : HalfOps H A) (N : ℕ) (fw : FilterWeights ℚ) (x c : ℕ) (r : ℕ → H) : H :=
  let p := fun k => r (((fw.bound x).start + k) * N + c)
  let w := fun k => o.arith.weight (fw.weight x k)
  let n := (fw.bound x).size
  if N = 4 ∧ cpu.avx2 ∧ cpu.f16c then
    o.narrow (pairSum o.arith.add (o.arith.mulAdd cpu.fma) o.arith.zero (fun k => o.widen (p k)) w n)
  else if N = 4 ∧ cpu.sse41 then
    o.narrowX cpu.f16c (chain (o.arith.mulAdd false) o.arith.zero (fun k => o.widenX cpu.f16c (p k)) w n)
  else if N = 3 ∧ cpu.sse41 then
    o.narrowX cpu.f16c (chain (o.arith.mulAdd (cpu.f16c && cpu.fma)) o.arith.zero (fun k => o.widenX cpu.f16c (p k)) w n)
  else o.narrow (floatVal (o.arith.scalar cpu.fused) n (fun k => o.widen (p k)) w)

/-- What a horizontal pass does to the padding. -/
def hpadF16 (cpu : HalfCpu) (o : HalfOps H A) (N : ℕ) : H → H :=
  if (N = 4 ∧ cpu.avx2 ∧ cpu.f16c) ∨ (N = 4 ∧ cpu.sse41) ∨ (N = 3 ∧ cpu.sse41) then id
  else fun _ => o.narrow o.arith.zero

theorem verticalF16_ok (cpu : HalfCpu) (o : HalfOps H A) {N : ℕ} (hN : 1 ≤ N ∧ N ≤ 4) (src dst : Image H)
    (fw : FilterWeights ℚ) (hs : src.validate N = .ok ()) (hd : dst.validate N = .ok ())
    (hw : src.width = dst.width) (hdw : 0 < dst.width) (hT : ValidTable fw src.height dst.height) :
    ∃ out, (formatF16 cpu o N).vertical src dst fw = some out ∧ SameShape out dst ∧
      PaddingKept N dst out ∧
      ∀ y x c, y < dst.height → x < dst.width → c < N →
        sample out.buffer (dst.strideOf N) N y x c = some (vvF16 cpu o fw y (x * N + c)
          (rowPos o.zeroH src.buffer (src.strideOf N))) := by
  simp only [formatF16]
  have hvw : ∀ y k, (rowW fw y).getD k 0 = fw.weight y k := fun y k => by
    unfold rowW FilterWeights.weight
    simp [List.getD_eq_getElem?_getD, List.getElem?_drop]
  have hvacc : ∀ cv nv fm y q total, VPre src.buffer (src.strideOf N) (rowW fw y) (fw.bound y) total → q < total →
      vAccH o.arith cv nv fm src.buffer (src.strideOf N) (fw.bound y) (rowW fw y) q =
      nv (chain (o.arith.mulAdd fm) o.arith.zero
        (fun k => cv (rowPos o.zeroH src.buffer (src.strideOf N) ((fw.bound y).start + k) q))
        (fun k => o.arith.weight (fw.weight y k)) (fw.bound y).size) := by
    intro cv nv fm y q total hp hq
    unfold vAccH vAccF
    refine congrArg nv (chain_congr ?_ ?_)
    · intro k hk
      unfold rowPos
      have := hp.row hk
      rw [getD_map' cv _ _ _ o.zeroH (by omega), Nat.mul_comm]
    · intro k hk
      rw [hvw y k]
  by_cases havx : cpu.avx2 ∧ cpu.f16c
  · have e : (fun b s dd ss w => columnF16 cpu o b s dd ss w) =
        fun b s dd ss w => avxColumnH o.arith o.widen o.narrow cpu.fma b s dd ss w := by
      funext b s dd ss w; unfold columnF16; rw [if_pos havx]
    rw [e]
    obtain ⟨r, e1, e2, e3, e4⟩ := verticalG_raw (column := avxColumnH o.arith o.widen o.narrow cpu.fma) (fw := fw)
      (V := fun y q => vvF16 cpu o fw y q (rowPos o.zeroH src.buffer (src.strideOf N)))
      (fun y dd hy hl hp => by
        obtain ⟨r, r1, r2, r3⟩ := avxColumnH_ok o.arith o.widen o.narrow cpu.fma (dst := dd) hp
        refine ⟨r, r1, r2, fun p hp' => ?_⟩
        rw [r3 p hp']
        refine congrArg some ((hvacc _ _ _ _ _ _ hp hp').trans ?_)
        unfold vvF16
        rw [if_pos havx]) hN.1 hs hd hw hdw hT
    exact ⟨_, e1, (raw_shape hN.1 hd e2 e4).1, (raw_shape hN.1 hd e2 e4).2, fun y x c hy hx hc => e3 y x c hy hx hc⟩
  by_cases hsse : cpu.sse41
  · have e : (fun b s dd ss w => columnF16 cpu o b s dd ss w) =
        fun b s dd ss w => sseColumnH o.arith (o.widenX cpu.f16c) (o.narrowX cpu.f16c) false b s dd ss w := by
      funext b s dd ss w; unfold columnF16; rw [if_neg havx, if_pos hsse]
    rw [e]
    obtain ⟨r, e1, e2, e3, e4⟩ := verticalG_raw
      (column := sseColumnH o.arith (o.widenX cpu.f16c) (o.narrowX cpu.f16c) false) (fw := fw)
      (V := fun y q => vvF16 cpu o fw y q (rowPos o.zeroH src.buffer (src.strideOf N)))
      (fun y dd hy hl hp => by
        obtain ⟨r, r1, r2, r3⟩ := sseColumnH_ok o.arith (o.widenX cpu.f16c) (o.narrowX cpu.f16c) false (dst := dd) hp
        refine ⟨r, r1, r2, fun p hp' => ?_⟩
        rw [r3 p hp']
        refine congrArg some ((hvacc _ _ _ _ _ _ hp hp').trans ?_)
        unfold vvF16
        rw [if_neg havx, if_pos hsse]) hN.1 hs hd hw hdw hT
    exact ⟨_, e1, (raw_shape hN.1 hd e2 e4).1, (raw_shape hN.1 hd e2 e4).2, fun y x c hy hx hc => e3 y x c hy hx hc⟩
  · have e : (fun b s dd ss w => columnF16 cpu o b s dd ss w) =
        fun b s dd ss w => columnHalf o cpu.fused b s dd ss w := by
      funext b s dd ss w; unfold columnF16; rw [if_neg havx, if_neg hsse]
    rw [e]
    obtain ⟨r, e1, e2, e3, e4⟩ := verticalG_raw (column := columnHalf o cpu.fused) (fw := fw)
      (V := fun y q => vvF16 cpu o fw y q (rowPos o.zeroH src.buffer (src.strideOf N)))
      (fun y dd hy hl hp => by
        obtain ⟨r, r1, r2, r3⟩ := columnHalf_ok o cpu.fused (dst := dd) hp
        refine ⟨r, r1, r2, fun p hp' => ?_⟩
        rw [r3 p hp']
        refine congrArg some ?_
        unfold vvF16
        rw [if_neg havx, if_neg hsse]
        refine congrArg o.narrow (floatVal_congr (fun _ _ => rfl) (fun k _ => ?_))
        exact congrArg o.arith.weight (hvw y k)) hN.1 hs hd hw hdw hT
    exact ⟨_, e1, (raw_shape hN.1 hd e2 e4).1, (raw_shape hN.1 hd e2 e4).2, fun y x c hy hx hc => e3 y x c hy hx hc⟩

/-! ### horizontal -/

/-- A horizontal pass whose handlers are known. -/
theorem horizontalF16_of {d0 : H} {pad : H → H} {N : ℕ} {src dst : Image H}
    {row : List H → List H → Option (List H)} {rows4 : List H → ℕ → List H → ℕ → Option (List H)}
    {v : (ℕ → H) → ℕ → ℕ → H}
    (hN : 1 ≤ N) (hs : src.validate N = .ok ()) (hd : dst.validate N = .ok ())
    (hh : src.height = dst.height) (hsw : 0 < src.width) (hdw : 0 < dst.width)
    (o1 : HOKp N (src.strideOf N) (dst.strideOf N) dst.width d0 pad v row)
    (o4 : H4OKp N (src.strideOf N) (dst.strideOf N) dst.width d0 pad v rows4) :
    ∃ out, horizontalDispatch N src dst (some rows4) row = some out ∧ SameShape out dst ∧ PaddingMapped N pad dst out ∧
      ∀ y x c, y < dst.height → x < dst.width → c < N → sample out.buffer (dst.strideOf N) N y x c =
        some (v (rowPos d0 src.buffer (src.strideOf N) y) x c) := by
  obtain ⟨s1, s2, _⟩ := validate_ok hs
  obtain ⟨d1, d2, _⟩ := validate_ok hd
  rw [hh] at s1
  obtain ⟨r, g1, g2, g3, g4⟩ := horizontalDispatch_specp o1 o4 o1.loc rfl rfl
    (lt_of_lt_of_le (Nat.mul_pos hsw hN) s2) (lt_of_lt_of_le (Nat.mul_pos hdw hN) d2) d2 s1 d1
  refine ⟨_, g1, (raw_shapep hN hd g2 g4).1, (raw_shapep hN hd g2 g4).2, ?_⟩
  intro y x c hy hx hc
  unfold sample
  rw [g3 y x c hy hx hc, ite_self]
  rfl

/-- Handlers given by a formula on the widened row. -/
theorem simdHalf_of {N : ℕ} (z : H) (a : VecOps A) {cv : H → A} {nv : A → H}
    {V : List ℚ → Bounds → (ℕ → A) → ℕ → A}
    {h : List H → List ℕ → List ℚ → Bounds → Option (List (List H))}
    (hloc : ∀ w b f g c, 1 ≤ b.size → c < N → (∀ i, i < (b.start + b.size) * N → f i = g i) → V w b f c = V w b g c)
    (hspec : ∀ s offs w b, HPre N s offs w b → h s offs w b = some (offs.map fun t => (List.range N).map fun c =>
      nv (V w b (fun i => (s.map cv).getD (t + i) a.zero) c)))
    (s : List H) (offs : List ℕ) (w : List ℚ) (b : Bounds) (hp : HPre N s offs w b) :
    h s offs w b = some (offs.map fun t => (List.range N).map fun c =>
      nv (V w b (fun i => cv (s.getD (t + i) z)) c)) := by
  rw [hspec s offs w b hp]
  refine congrArg some (List.map_congr_left fun t ht => List.map_congr_left fun c hc => congrArg nv ?_)
  apply hloc w b _ _ c hp.size (List.mem_range.1 hc)
  intro i hi
  have := hp.inside t ht
  exact getD_map' cv s (t + i) _ z (by omega)

theorem simdHalf_pass {N : ℕ} (z : H) (a : VecOps A) {cv : H → A} {nv : A → H} {src dst : Image H} {fw : FilterWeights ℚ}
    {V : List ℚ → Bounds → (ℕ → A) → ℕ → A}
    {h : List H → List ℕ → List ℚ → Bounds → Option (List (List H))}
    (hloc : ∀ w b f g c, 1 ≤ b.size → c < N → (∀ i, i < (b.start + b.size) * N → f i = g i) → V w b f c = V w b g c)
    (hspec : ∀ s offs w b, HPre N s offs w b → h s offs w b = some (offs.map fun t => (List.range N).map fun c =>
      nv (V w b (fun i => (s.map cv).getD (t + i) a.zero) c)))
    (hN : 1 ≤ N) (hs : src.validate N = .ok ()) (hd : dst.validate N = .ok ())
    (hh : src.height = dst.height) (hsw : 0 < src.width) (hdw : 0 < dst.width)
    (hT : ValidTable fw src.width dst.width) :
    ∃ out, horizontalDispatch N src dst (some fun s ss d ds => simdRows4 N (h s) ss d ds fw)
        (fun s d => simdRow N (h s) d fw) = some out ∧ SameShape out dst ∧ PaddingMapped N id dst out ∧
      ∀ y x c, y < dst.height → x < dst.width → c < N → sample out.buffer (dst.strideOf N) N y x c =
        some (nv (V (fw.kernel x) (fw.bound x) (fun i => cv (rowPos z src.buffer (src.strideOf N) y i)) c)) := by
  obtain ⟨s1, s2, _⟩ := validate_ok hs
  obtain ⟨d1, d2, _⟩ := validate_ok hd
  have sp := simdHalf_of z a hloc hspec
  exact horizontalF16_of (v := fun f x c => nv (V (fw.kernel x) (fw.bound x) (fun i => cv (f i)) c)) hN hs hd hh hsw hdw
    (simdRow_ok (h1 := h) (V1 := fun w b f c => nv (V w b (fun i => cv (f i)) c)) sp
      (fun w b f g c hb hc hfg => congrArg nv (hloc w b _ _ c hb hc fun i hi => congrArg cv (hfg i hi))) hT s2 d2).toPad
    (simdRows4_ok (h4 := h) (V4 := fun w b f c => nv (V w b (fun i => cv (f i)) c)) sp hT s2 d2).toPad

theorem horizontalF16_ok (cpu : HalfCpu) (o : HalfOps H A) {N : ℕ} (hN : 1 ≤ N ∧ N ≤ 4) (src dst : Image H)
    (fw : FilterWeights ℚ) (hs : src.validate N = .ok ()) (hd : dst.validate N = .ok ())
    (hh : src.height = dst.height) (hsw : 0 < src.width) (hdw : 0 < dst.width)
    (hT : ValidTable fw src.width dst.width) :
    ∃ out, (formatF16 cpu o N).horizontal src dst fw = some out ∧ SameShape out dst ∧
      PaddingMapped N (hpadF16 cpu o N) dst out ∧
      ∀ y x c, y < dst.height → x < dst.width → c < N →
        sample out.buffer (dst.strideOf N) N y x c = some (hvF16 cpu o N fw x c
          (rowPos o.zeroH src.buffer (src.strideOf N) y)) := by
  obtain ⟨s1, s2, _⟩ := validate_ok hs
  obtain ⟨d1, d2, _⟩ := validate_ok hd
  have kw := fun x (hx : x < dst.width) k (hk : k < (fw.bound x).size) => kernel_wF o.arith hT hx hk
  have pos := fun x (hx : x < dst.width) => hT.size_pos x hx
  simp only [formatF16]
  by_cases c1 : N = 4 ∧ cpu.avx2 ∧ cpu.f16c
  · obtain ⟨rfl, hc⟩ := c1
    have e1 : (fun s ss dd ds => rows4F16 cpu o 4 s ss dd ds fw) =
        fun s ss dd ds => simdRows4 4 (rgbaAvxH o.arith o.widen o.narrow cpu.fma s) ss dd ds fw := by
      funext s ss dd ds; unfold rows4F16; rw [if_pos ⟨rfl, hc⟩]
    have e2 : (fun s dd => rowF16 cpu o 4 s dd fw) =
        fun s dd => simdRow 4 (rgbaAvxH o.arith o.widen o.narrow cpu.fma s) dd fw := by
      funext s dd; unfold rowF16; rw [if_pos ⟨rfl, hc⟩]
    rw [e1, e2]
    obtain ⟨out, g1, g2, g3, g4⟩ := simdHalf_pass o.zeroH o.arith (cv := o.widen) (nv := o.narrow) (fw := fw)
      (V := avxH o.arith cpu.fma) (h := rgbaAvxH o.arith o.widen o.narrow cpu.fma)
      (avxH_local o.arith cpu.fma) (fun s offs w b h => rgbaAvxH_ok o.arith o.widen o.narrow cpu.fma h)
      (by norm_num) hs hd hh hsw hdw hT
    refine ⟨out, g1, g2, ?_, fun y x c hy hx hc' => ?_⟩
    · unfold hpadF16; rw [if_pos (Or.inl ⟨rfl, hc⟩)]; exact g3
    · rw [g4 y x c hy hx hc']
      refine congrArg some ?_
      unfold hvF16 avxH
      rw [if_pos ⟨rfl, hc⟩]
      exact congrArg o.narrow (pairSum_congr (pos x hx) (fun _ _ => rfl) (fun k hk => kw x hx k hk))
  by_cases c2 : N = 4 ∧ cpu.sse41
  · obtain ⟨rfl, hc⟩ := c2
    have e1 : (fun s ss dd ds => rows4F16 cpu o 4 s ss dd ds fw) =
        fun s ss dd ds => simdRows4 4 (rgbaSseH o.arith (o.widenX cpu.f16c) (o.narrowX cpu.f16c) false s) ss dd ds fw := by
      funext s ss dd ds; unfold rows4F16; rw [if_neg c1, if_pos ⟨rfl, hc⟩]
    have e2 : (fun s dd => rowF16 cpu o 4 s dd fw) =
        fun s dd => simdRow 4 (rgbaSseH o.arith (o.widenX cpu.f16c) (o.narrowX cpu.f16c) false s) dd fw := by
      funext s dd; unfold rowF16; rw [if_neg c1, if_pos ⟨rfl, hc⟩]
    rw [e1, e2]
    obtain ⟨out, g1, g2, g3, g4⟩ := simdHalf_pass o.zeroH o.arith (cv := o.widenX cpu.f16c) (nv := o.narrowX cpu.f16c) (fw := fw)
      (V := seqH o.arith false 4) (h := rgbaSseH o.arith (o.widenX cpu.f16c) (o.narrowX cpu.f16c) false)
      (fun w b f g c _ hc h => seqH_local o.arith false 4 w b f g c hc h)
      (fun s offs w b h => rgbaSseH_ok o.arith _ _ false h)
      (by norm_num) hs hd hh hsw hdw hT
    refine ⟨out, g1, g2, ?_, fun y x c hy hx hc' => ?_⟩
    · unfold hpadF16; rw [if_pos (Or.inr (Or.inl ⟨rfl, hc⟩))]; exact g3
    · rw [g4 y x c hy hx hc']
      refine congrArg some ?_
      unfold hvF16 seqH
      rw [if_neg c1, if_pos ⟨rfl, hc⟩]
      exact congrArg (o.narrowX cpu.f16c) (chain_congr (fun _ _ => rfl) (fun k hk => kw x hx k hk))
  by_cases c3 : N = 3 ∧ cpu.sse41
  · obtain ⟨rfl, hc⟩ := c3
    have e1 : (fun s ss dd ds => rows4F16 cpu o 3 s ss dd ds fw) =
        fun s ss dd ds => simdRows4 3 (rgbSseH o.arith (o.widenX cpu.f16c) (o.narrowX cpu.f16c) o.zeroH
          (cpu.f16c && cpu.fma) s) ss dd ds fw := by
      funext s ss dd ds; unfold rows4F16; rw [if_neg c1, if_neg c2, if_pos ⟨rfl, hc⟩]
    have e2 : (fun s dd => rowF16 cpu o 3 s dd fw) =
        fun s dd => simdRow 3 (rgbSseH o.arith (o.widenX cpu.f16c) (o.narrowX cpu.f16c) o.zeroH
          (cpu.f16c && cpu.fma) s) dd fw := by
      funext s dd; unfold rowF16; rw [if_neg c1, if_neg c2, if_pos ⟨rfl, hc⟩]
    rw [e1, e2]
    obtain ⟨out, g1, g2, g3, g4⟩ := simdHalf_pass o.zeroH o.arith (cv := o.widenX cpu.f16c) (nv := o.narrowX cpu.f16c) (fw := fw)
      (V := seqH o.arith (cpu.f16c && cpu.fma) 3)
      (h := rgbSseH o.arith (o.widenX cpu.f16c) (o.narrowX cpu.f16c) o.zeroH (cpu.f16c && cpu.fma))
      (fun w b f g c _ hc h => seqH_local o.arith (cpu.f16c && cpu.fma) 3 w b f g c hc h)
      (fun s offs w b h => rgbSseH_ok o.arith _ _ _ _ h)
      (by norm_num) hs hd hh hsw hdw hT
    refine ⟨out, g1, g2, ?_, fun y x c hy hx hc' => ?_⟩
    · unfold hpadF16; rw [if_pos (Or.inr (Or.inr ⟨rfl, hc⟩))]; exact g3
    · rw [g4 y x c hy hx hc']
      refine congrArg some ?_
      unfold hvF16 seqH
      rw [if_neg c1, if_neg c2, if_pos ⟨rfl, hc⟩]
      exact congrArg (o.narrowX cpu.f16c) (chain_congr (fun _ _ => rfl) (fun k hk => kw x hx k hk))
  · have e1 : (fun s ss dd ds => rows4F16 cpu o N s ss dd ds fw) =
        fun s ss dd ds => rows4Half o cpu.fused N s ss dd ds fw := by
      funext s ss dd ds; unfold rows4F16; rw [if_neg c1, if_neg c2, if_neg c3]
    have e2 : (fun s dd => rowF16 cpu o N s dd fw) = fun s dd => rowHalf o cpu.fused N s dd fw := by
      funext s dd; unfold rowF16; rw [if_neg c1, if_neg c2, if_neg c3]
    rw [e1, e2]
    obtain ⟨out, g1, g2, g3, g4⟩ := horizontalF16_of hN.1 hs hd hh hsw hdw (rowHalf_ok o cpu.fused hN hT s2 d2)
      (rows4Half_ok o cpu.fused hN hT s2 d2)
    refine ⟨out, g1, g2, ?_, fun y x c hy hx hc' => ?_⟩
    · unfold hpadF16; rw [if_neg (by tauto)]; exact g3
    · rw [g4 y x c hy hx hc']
      refine congrArg some ?_
      unfold hvF16 portH
      rw [if_neg c1, if_neg c2, if_neg c3]
      exact congrArg o.narrow (floatVal_congr (fun _ _ => rfl) (fun k hk => kw x hx k hk))

theorem hvF16_congr (cpu : HalfCpu) (o : HalfOps H A) {N : ℕ} {fw : FilterWeights ℚ} {inn out : ℕ}
    (hT : ValidTable fw inn out) {x c : ℕ} {p p' : ℕ → H} (hx : x < out) (hc : c < N)
    (h : ∀ q, q < inn * N → p q = p' q) : hvF16 cpu o N fw x c p = hvF16 cpu o N fw x c p' := by
  have hn := hT.size_pos x hx
  have hin := hT.inside x hx
  have hs : ∀ k, k < (fw.bound x).size → p (((fw.bound x).start + k) * N + c) = p' (((fw.bound x).start + k) * N + c) := by
    intro k hk
    apply h
    have : ((fw.bound x).start + k + 1) * N ≤ inn * N := Nat.mul_le_mul_right _ (by omega)
    rw [Nat.add_mul _ 1] at this
    omega
  unfold hvF16
  dsimp only
  split_ifs
  · exact congrArg o.narrow (pairSum_congr hn (fun k hk => congrArg o.widen (hs k hk)) (fun _ _ => rfl))
  · exact congrArg _ (chain_congr (fun k hk => congrArg _ (hs k hk)) (fun _ _ => rfl))
  · exact congrArg _ (chain_congr (fun k hk => congrArg _ (hs k hk)) (fun _ _ => rfl))
  · exact congrArg _ (floatVal_congr (fun k hk => congrArg _ (hs k hk)) (fun _ _ => rfl))

end PicScale
