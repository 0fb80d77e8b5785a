import Verif.Lemmas.NeonF16
import Verif.Lemmas.F16Fun

/-! The passes of f16 images on AArch64, as functions of the picture. -/

namespace PicScale

open Spec

variable {H A B : Type}

/-- Sum of `n` taps as a vector variant computes it. -/
def laneSum (v : NeonLanes H B) (p : ℕ → H) (w : ℕ → ℚ) (n : ℕ) : H :=
  v.nv (chain (v.arith.mulAdd true) v.arith.zero (fun k => v.cv (p k)) (fun k => v.arith.weight (w k)) n)

theorem laneSum_congr (v : NeonLanes H B) {p p' : ℕ → H} {w w' : ℕ → ℚ} {n : ℕ} (hp : ∀ k, k < n → p k = p' k)
    (hw : ∀ k, k < n → w k = w' k) : laneSum v p w n = laneSum v p' w' n := by
  unfold laneSum
  exact congrArg _ (chain_congr (fun k hk => by rw [hp k hk]) (fun k hk => by rw [hw k hk]))

/-- Sum of `n` taps as a path computes it. -/
def sumNeonH (o : HalfOps H A) (h : VecOps H) (path : HalfPath) (p : ℕ → H) (w : ℕ → ℚ) (n : ℕ) : H :=
  match path with
  | .portable => o.narrow (floatVal (o.arith.scalar true) n (fun k => o.widen (p k)) (fun k => o.arith.weight (w k)))
  | .base => laneSum (lanesBase o) p w n
  | .fhm => laneSum (lanesFhm o) p w n
  | .full => laneSum (lanesFull o h) p w n

theorem sumNeonH_congr (o : HalfOps H A) (h : VecOps H) (path : HalfPath) {p p' : ℕ → H} {w : ℕ → ℚ} {n : ℕ}
    (hp : ∀ k, k < n → p k = p' k) : sumNeonH o h path p w n = sumNeonH o h path p' w n := by
  cases path
  · exact congrArg _ (floatVal_congr (fun k hk => by rw [hp k hk]) (fun _ _ => rfl))
  all_goals exact laneSum_congr _ hp (fun _ _ => rfl)

/-- Which sample of a window of `n` pixels a horizontal pass multiplies with weight `k` for channel `c`; `four` when
the row is one of a group of four. -/
def halfTap (path : HalfPath) (N : ℕ) (four : Bool) (n k c : ℕ) : ℕ :=
  if path = .portable then k * N + c
  else if N = 4 then rgbaTap four n k c
  else rgbTap (decide (path ≠ .full)) n k c

theorem rgbTap_lt {good : Bool} {n k c : ℕ} (hk : k < n) (hc : c < 3) : rgbTap good n k c < n * 3 := by
  unfold rgbTap; split_ifs <;> omega

theorem rgbaTap_lt {four : Bool} {n k c : ℕ} (hk : k < n) (hc : c < 4) : rgbaTap four n k c < n * 4 := by
  unfold rgbaTap; split_ifs <;> omega

theorem halfTap_lt {path : HalfPath} {N : ℕ} (hN : path = .portable ∨ N = 3 ∨ N = 4) {four : Bool} {n k c : ℕ} (hk : k < n)
    (hc : c < N) : halfTap path N four n k c < n * N := by
  unfold halfTap
  split_ifs with h1 h2
  · have : (k + 1) * N ≤ n * N := Nat.mul_le_mul_right _ hk
    rw [Nat.add_mul] at this; omega
  · subst h2; exact rgbaTap_lt hk hc
  · rcases hN with hN | hN | hN
    · exact absurd hN h1
    · subst hN; exact rgbTap_lt hk hc
    · exact absurd hN h2

theorem pathH_channels (cpu : NeonHalfCpu) (s : Workload) (N : ℕ) : pathH cpu s N = .portable ∨ N = 3 ∨ N = 4 := by
  unfold pathH
  split_ifs with h1 h2 <;> tauto

/-- Vertical pass: destination row `y`, position `q`. -/
def vvNeonH (cpu : NeonHalfCpu) (s : Workload) (o : HalfOps H A) (h : VecOps H) (fw : FilterWeights ℚ) (y q : ℕ)
    (P : ℕ → ℕ → H) : H :=
  sumNeonH o h (pathV cpu s) (fun k => P ((fw.bound y).start + k) q) (fw.weight y) (fw.bound y).size

/-- Horizontal pass: pixel `x`, channel `c` of row `y` of `hgt`. -/
def hvNeonH (cpu : NeonHalfCpu) (s : Workload) (o : HalfOps H A) (h : VecOps H) (N : ℕ) (fw : FilterWeights ℚ) (hgt y x c : ℕ)
    (r : ℕ → H) : H :=
  sumNeonH o h (pathH cpu s N)
    (fun k => r ((fw.bound x).start * N + halfTap (pathH cpu s N) N (decide (y < hgt / 4 * 4)) (fw.bound x).size k c))
    (fw.weight x) (fw.bound x).size

/-- What a horizontal pass does to the padding. -/
def hpadNeonH (cpu : NeonHalfCpu) (s : Workload) (o : HalfOps H A) (N : ℕ) : H → H :=
  if pathH cpu s N = .portable then fun _ => o.narrow o.arith.zero else id

theorem columnNeonH_ok (o : HalfOps H A) (h : VecOps H) (path : HalfPath) {src dst : List H} {stride : ℕ} {b : Bounds}
    {w : List ℚ} (hp : VPre src stride w b dst.length) :
    ∃ r, columnNeonH o h path b src dst stride w = some r ∧ r.length = dst.length ∧
      ∀ p, p < dst.length → r[p]? = some (sumNeonH o h path
        (fun k => src.getD ((b.start + k) * stride + p) o.zeroH) (fun k => w.getD k 0) b.size) := by
  have key : ∀ {B : Type} (v : NeonLanes H B) (p : ℕ), p < dst.length →
      vAccH v.arith v.cv v.nv true src stride b w p =
        laneSum v (fun k => src.getD ((b.start + k) * stride + p) o.zeroH) (fun k => w.getD k 0) b.size := by
    intro B v p hp'
    unfold vAccH vAccF laneSum
    refine congrArg v.nv (chain_congr (fun k hk => ?_) (fun k hk => rfl))
    have := hp.row hk
    rw [getD_map' v.cv _ _ _ o.zeroH (by omega), Nat.mul_comm]
  cases path
  · exact columnHalf_ok o true hp
  · obtain ⟨r, r1, r2, r3⟩ := neonColumnH_ok (lanesBase o) o.zeroH hp
    exact ⟨r, r1, r2, fun p hp' => by rw [r3 p hp', key _ p hp']; rfl⟩
  · obtain ⟨r, r1, r2, r3⟩ := neonColumnH_ok (lanesFhm o) o.zeroH hp
    exact ⟨r, r1, r2, fun p hp' => by rw [r3 p hp', key _ p hp']; rfl⟩
  · obtain ⟨r, r1, r2, r3⟩ := neonColumnH_ok (lanesFull o h) o.zeroH hp
    exact ⟨r, r1, r2, fun p hp' => by rw [r3 p hp', key _ p hp']; rfl⟩

theorem verticalNeonH_ok (cpu : NeonHalfCpu) (s : Workload) (o : HalfOps H A) (h : VecOps H) {N : ℕ} (hN : 1 ≤ N ∧ N ≤ 4)
    (src dst : Image H)
    (fw : FilterWeights ℚ) (hs : src.validate N = .ok ()) (hd : dst.validate N = .ok ())
    (hw : src.width = dst.width) (hdw : 0 < dst.width) (hT : ValidTable fw src.height dst.height) :
    ∃ out, (formatF16Neon cpu s o h N).vertical src dst fw = some out ∧ SameShape out dst ∧
      PaddingKept N dst out ∧
      ∀ y x c, y < dst.height → x < dst.width → c < N →
        sample out.buffer (dst.strideOf N) N y x c = some (vvNeonH cpu s o h fw y (x * N + c)
          (rowPos o.zeroH src.buffer (src.strideOf N))) := by
  have hvw : ∀ y k, (rowW fw y).getD k 0 = fw.weight y k := fun y k => by
    unfold rowW FilterWeights.weight
    simp [List.getD_eq_getElem?_getD, List.getElem?_drop]
  obtain ⟨r, e1, e2, e3, e4⟩ := verticalG_raw (column := columnNeonH o h (pathV cpu s)) (fw := fw)
    (V := fun y q => vvNeonH cpu s o h fw y q (rowPos o.zeroH src.buffer (src.strideOf N)))
    (fun y dd hy hl hp => by
      obtain ⟨r, r1, r2, r3⟩ := columnNeonH_ok o h (pathV cpu s) (dst := dd) hp
      refine ⟨r, r1, r2, fun p hp' => ?_⟩
      rw [r3 p hp']
      refine congrArg some ?_
      unfold vvNeonH
      rw [show (fun k => (List.drop (y * fw.alignedSize) fw.weights).getD k 0) = fw.weight y from funext fun k => hvw y k]
      rfl) hN.1 hs hd hw hdw hT
  exact ⟨_, e1, (raw_shape hN.1 hd e2 e4).1, (raw_shape hN.1 hd e2 e4).2, fun y x c hy hx hc => e3 y x c hy hx hc⟩

/-! ### horizontal -/

theorem tapSum_local (v : NeonLanes H B) {N : ℕ} {T : ℕ → ℕ → ℕ → ℕ} (hT : ∀ n k c, k < n → c < N → T n k c < n * N)
    (w : List ℚ) (b : Bounds) (f g : ℕ → B) (c : ℕ) (hc : c < N) (h : ∀ i, i < (b.start + b.size) * N → f i = g i) :
    winSum v.arith (T b.size) w b N f b.size c = winSum v.arith (T b.size) w b N g b.size c := by
  unfold winSum
  refine chain_congr (fun k hk => h _ ?_) (fun _ _ => rfl)
  have := hT b.size k c hk hc
  rw [Nat.add_mul]; omega

/-- A horizontal pass of a vector variant. -/
theorem neonHalf_pass (z : H) (v : NeonLanes H B) {N : ℕ} {src dst : Image H} {fw : FilterWeights ℚ}
    {T : Bool → ℕ → ℕ → ℕ → ℕ}
    {hd4 : Bool → List H → List ℕ → List ℚ → Bounds → Option (List (List H))}
    (hT : ∀ four n k c, k < n → c < N → T four n k c < n * N)
    (hspec : ∀ four s offs w b, HPre N s offs w b → hd4 four s offs w b = some (offs.map fun t => (List.range N).map fun c =>
      v.nv (winSum v.arith (T four b.size) w b N (fun i => (s.map v.cv).getD (t + i) v.arith.zero) b.size c)))
    (hN : 1 ≤ N) (hs : src.validate N = .ok ()) (hd : dst.validate N = .ok ())
    (hh : src.height = dst.height) (hsw : 0 < src.width) (hdw : 0 < dst.width)
    (hW : ValidTable fw src.width dst.width) :
    ∃ out, horizontalDispatch N src dst (some fun s ss d ds => simdRows4 N (hd4 true s) ss d ds fw)
        (fun s d => simdRow N (hd4 false s) d fw) = some out ∧ SameShape out dst ∧ PaddingKept N dst out ∧
      ∀ y x c, y < dst.height → x < dst.width → c < N → sample out.buffer (dst.strideOf N) N y x c =
        some (laneSum v (fun k => rowPos z src.buffer (src.strideOf N) y ((fw.bound x).start * N +
          T (decide (y < dst.height / 4 * 4)) (fw.bound x).size k c)) (fw.weight x) (fw.bound x).size) := by
  obtain ⟨s1, s2, _⟩ := validate_ok hs
  obtain ⟨d1, d2, _⟩ := validate_ok hd
  have hloc := fun four w b f g c (hb : 1 ≤ b.size) hc hfg => tapSum_local v (hT four) w b f g c hc hfg
  have sp := fun four => simdHalf_of z v.arith (cv := v.cv) (nv := v.nv) (V := fun w b f c => winSum v.arith (T four b.size) w b N f b.size c)
    (hloc four) (hspec four)
  have hl : ∀ four w b (f g : ℕ → H) c, 1 ≤ b.size → c < N → (∀ i, i < (b.start + b.size) * N → f i = g i) →
      v.nv (winSum v.arith (T four b.size) w b N (fun i => v.cv (f i)) b.size c) =
      v.nv (winSum v.arith (T four b.size) w b N (fun i => v.cv (g i)) b.size c) :=
    fun four w b f g c hb hc hfg => congrArg v.nv (hloc four w b _ _ c hb hc fun i hi => congrArg v.cv (hfg i hi))
  have o1 := simdRow_ok (h1 := hd4 false) (V1 := fun w b f c => v.nv (winSum v.arith (T false b.size) w b N (fun i => v.cv (f i)) b.size c))
    (sp false) (hl false) hW s2 d2
  have o4 := simdRows4_ok (h4 := hd4 true) (V4 := fun w b f c => v.nv (winSum v.arith (T true b.size) w b N (fun i => v.cv (f i)) b.size c))
    (sp true) hW s2 d2
  have o4' := simdRow_ok (h1 := hd4 true) (V1 := fun w b f c => v.nv (winSum v.arith (T true b.size) w b N (fun i => v.cv (f i)) b.size c))
    (sp true) (hl true) hW s2 d2
  obtain ⟨out, g1, g2, g3, g4⟩ := horizontalX86_of hN hs hd hh hsw hdw o1 o4 o4'.loc
  refine ⟨out, g1, g2, g3, fun y x c hy hx hc => ?_⟩
  rw [g4 y x c hy hx hc]
  refine congrArg some ?_
  by_cases h4 : y < dst.height / 4 * 4
  · rw [if_pos h4, decide_eq_true h4]
    unfold winSum laneSum
    exact congrArg v.nv (chain_congr (fun _ _ => rfl) (fun k hk => kernel_wF v.arith hW hx hk))
  · rw [if_neg h4, decide_eq_false h4]
    unfold winSum laneSum
    exact congrArg v.nv (chain_congr (fun _ _ => rfl) (fun k hk => kernel_wF v.arith hW hx hk))

theorem handlerNeonH_pass (z : H) (v : NeonLanes H B) (good : Bool) (g4 : v.rgb4 = if good then 8 else 0)
    (g1 : v.rgb1 = if good then 2 else 0) {N : ℕ} (hN : N = 3 ∨ N = 4) {src dst : Image H} {fw : FilterWeights ℚ}
    (hs : src.validate N = .ok ()) (hd : dst.validate N = .ok ())
    (hh : src.height = dst.height) (hsw : 0 < src.width) (hdw : 0 < dst.width)
    (hW : ValidTable fw src.width dst.width) :
    ∃ out, horizontalDispatch N src dst (some fun s ss d ds => simdRows4 N (handlerNeonH v z N true s) ss d ds fw)
        (fun s d => simdRow N (handlerNeonH v z N false s) d fw) = some out ∧ SameShape out dst ∧ PaddingKept N dst out ∧
      ∀ y x c, y < dst.height → x < dst.width → c < N → sample out.buffer (dst.strideOf N) N y x c =
        some (laneSum v (fun k => rowPos z src.buffer (src.strideOf N) y ((fw.bound x).start * N +
          (if N = 4 then rgbaTap (decide (y < dst.height / 4 * 4)) (fw.bound x).size k c else rgbTap good (fw.bound x).size k c)))
          (fw.weight x) (fw.bound x).size) := by
  rcases hN with rfl | rfl
  · exact neonHalf_pass z v (N := 3) (hd4 := fun four => handlerNeonH v z 3 four) (T := fun _ => rgbTap good)
      (fun _ n k c hk hc => rgbTap_lt hk hc) (fun four s offs w b hp => rgbNeonH_ok v z good g4 g1 hp)
      (by norm_num) hs hd hh hsw hdw hW
  · exact neonHalf_pass z v (N := 4) (hd4 := fun four => handlerNeonH v z 4 four) (T := rgbaTap)
      (fun _ n k c hk hc => rgbaTap_lt hk hc) (fun four s offs w b hp => rgbaNeonH_ok v four hp)
      (by norm_num) hs hd hh hsw hdw hW

theorem horizontalNeonH_ok (cpu : NeonHalfCpu) (s : Workload) (o : HalfOps H A) (h : VecOps H) {N : ℕ} (hN : 1 ≤ N ∧ N ≤ 4)
    (src dst : Image H)
    (fw : FilterWeights ℚ) (hs : src.validate N = .ok ()) (hd : dst.validate N = .ok ())
    (hh : src.height = dst.height) (hsw : 0 < src.width) (hdw : 0 < dst.width)
    (hT : ValidTable fw src.width dst.width) :
    ∃ out, (formatF16Neon cpu s o h N).horizontal src dst fw = some out ∧ SameShape out dst ∧
      PaddingMapped N (hpadNeonH cpu s o N) dst out ∧
      ∀ y x c, y < dst.height → x < dst.width → c < N →
        sample out.buffer (dst.strideOf N) N y x c = some (hvNeonH cpu s o h N fw dst.height y x c
          (rowPos o.zeroH src.buffer (src.strideOf N) y)) := by
  obtain ⟨s1, s2, _⟩ := validate_ok hs
  obtain ⟨d1, d2, _⟩ := validate_ok hd
  simp only [formatF16Neon]
  have hch := pathH_channels cpu s N
  unfold hpadNeonH hvNeonH
  generalize pathH cpu s N = path at hch ⊢
  cases path
  · obtain ⟨out, g1, g2, g3, g4⟩ := horizontalF16_of hN.1 hs hd hh hsw hdw (rowHalf_ok o true hN hT s2 d2)
      (rows4Half_ok o true hN hT s2 d2)
    refine ⟨out, g1, g2, by rw [if_pos rfl]; exact g3, fun y x c hy hx hc => ?_⟩
    rw [g4 y x c hy hx hc]
    refine congrArg some ?_
    unfold portH sumNeonH halfTap
    simp only [if_true]
    refine congrArg o.narrow (floatVal_congr (fun k hk => ?_) (fun k hk => kernel_wF o.arith hT hx hk))
    rw [Nat.add_mul, Nat.add_assoc]
  · obtain ⟨out, g1, g2, g3, g4⟩ := handlerNeonH_pass o.zeroH (lanesBase o) true rfl rfl (by tauto) hs hd hh hsw hdw hT
    refine ⟨out, g1, g2, by rw [if_neg (by decide)]; exact paddingMapped_id.2 g3, fun y x c hy hx hc => ?_⟩
    rw [g4 y x c hy hx hc]
    refine congrArg some (laneSum_congr _ (fun k hk => ?_) (fun _ _ => rfl))
    unfold halfTap
    simp only [reduceCtorEq, if_false, ne_eq, not_false_eq_true, decide_true, not_true_eq_false, decide_false]
  · obtain ⟨out, g1, g2, g3, g4⟩ := handlerNeonH_pass o.zeroH (lanesFhm o) true rfl rfl (by tauto) hs hd hh hsw hdw hT
    refine ⟨out, g1, g2, by rw [if_neg (by decide)]; exact paddingMapped_id.2 g3, fun y x c hy hx hc => ?_⟩
    rw [g4 y x c hy hx hc]
    refine congrArg some (laneSum_congr _ (fun k hk => ?_) (fun _ _ => rfl))
    unfold halfTap
    simp only [reduceCtorEq, if_false, ne_eq, not_false_eq_true, decide_true, not_true_eq_false, decide_false]
  · obtain ⟨out, g1, g2, g3, g4⟩ := handlerNeonH_pass o.zeroH (lanesFull o h) false rfl rfl (by tauto) hs hd hh hsw hdw hT
    refine ⟨out, g1, g2, by rw [if_neg (by decide)]; exact paddingMapped_id.2 g3, fun y x c hy hx hc => ?_⟩
    rw [g4 y x c hy hx hc]
    refine congrArg some (laneSum_congr _ (fun k hk => ?_) (fun _ _ => rfl))
    unfold halfTap
    simp only [reduceCtorEq, if_false, ne_eq, not_false_eq_true, decide_true, not_true_eq_false, decide_false]

theorem hvNeonH_congr (cpu : NeonHalfCpu) (s : Workload) (o : HalfOps H A) (h : VecOps H) {N : ℕ} {fw : FilterWeights ℚ}
    {inn out hgt y : ℕ} (hT : ValidTable fw inn out) {x c : ℕ} {p p' : ℕ → H} (hx : x < out) (hc : c < N)
    (hp : ∀ q, q < inn * N → p q = p' q) : hvNeonH cpu s o h N fw hgt y x c p = hvNeonH cpu s o h N fw hgt y x c p' := by
  have hin := hT.inside x hx
  unfold hvNeonH
  refine sumNeonH_congr _ _ _ (fun k hk => hp _ ?_)
  have := halfTap_lt (pathH_channels cpu s N) (four := decide (y < hgt / 4 * 4)) hk hc
  have h2 : ((fw.bound x).start + (fw.bound x).size) * N ≤ inn * N := Nat.mul_le_mul_right _ hin
  rw [Nat.add_mul] at h2
  omega

/-! ### whole resizes -/

theorem convolve_neonH {W N : ℕ} (cpu : NeonHalfCpu) (st : Workload) (o : HalfOps H A) (h : VecOps H) (hN : 1 ≤ N ∧ N ≤ 4)
    {table : ℕ → ℕ → Option (FilterWeights ℚ)} {store into : Image H} {vf hf : FilterWeights ℚ}
    (hs : store.validate N = .ok ()) (hd : into.validate N = .ok ()) (hsw : 0 < store.width)
    (hdw : 0 < into.width)
    (hne : store.width ≠ into.width ∨ store.height ≠ into.height)
    (hfit : store.width * into.height * N < W)
    (ev : table store.height into.height = some vf) (eh : table store.width into.width = some hf)
    (Tv : ValidTable vf store.height into.height) (Th : ValidTable hf store.width into.width) :
    ∃ out, convolve W N (formatF16Neon cpu st o h N) table store into = some out ∧ SameShape out into ∧
      PaddingMapped N (if store.width = into.width then id else hpadNeonH cpu st o N) into out ∧
      ∀ y x c, y < into.height → x < into.width → c < N →
        sample out.buffer (into.strideOf N) N y x c = some (sepFun N store.width store.height
          into.width into.height (vvNeonH cpu st o h vf) (fun y => hvNeonH cpu st o h N hf into.height y)
          (rowPos o.zeroH store.buffer (store.strideOf N)) y x c) := by
  unfold convolve
  by_cases h1 : store.width = into.width
  · have h2 : store.height ≠ into.height := by tauto
    rw [if_neg (by tauto), if_pos h2, ev]
    obtain ⟨out, o1, o2, o3, o4⟩ := verticalNeonH_ok cpu st o h hN store into vf hs hd h1 hdw Tv
    refine ⟨out, o1, o2, ?_, ?_⟩
    · rw [if_pos h1]; exact paddingMapped_id.2 o3
    intro y x c hy hx hc
    rw [o4 y x c hy hx hc]
    simp only [sepFun, if_pos h1, if_neg h2]
  by_cases h2 : store.height = into.height
  · rw [if_neg (by tauto), if_neg (by tauto), eh]
    obtain ⟨out, o1, o2, o3, o4⟩ := horizontalNeonH_ok cpu st o h hN store into hf hs hd h2 hsw hdw Th
    refine ⟨out, o1, o2, ?_, ?_⟩
    · rw [if_neg h1]; exact o3
    intro y x c hy hx hc
    rw [o4 y x c hy hx hc]
    simp only [sepFun, if_neg h1, if_pos h2]
  · rw [if_pos ⟨h1, h2⟩, tempImage_some hfit, ev, eh]
    simp only [Option.bind_eq_bind, Option.bind_some]
    obtain ⟨t, t1, t2, _, t4⟩ := verticalNeonH_ok cpu st o h hN store
      { buffer := List.replicate (store.width * into.height * N) o.zeroH, channels := N,
        width := store.width, height := into.height, stride := store.width * N, bitDepth := into.bitDepth }
      vf hs (packed_validate (by rw [List.length_replicate])) rfl hsw Tv
    obtain ⟨_, _, _, _, _, tl⟩ := t2
    simp only [List.length_replicate] at tl
    simp only [packed_strideOf] at t4
    have t1' : (formatF16Neon cpu st o h N).vertical store
      { buffer := List.replicate (store.width * into.height * N) (formatF16Neon cpu st o h N).default, channels := N,
        width := store.width, height := into.height, stride := store.width * N, bitDepth := into.bitDepth } vf = some t := t1
    rw [t1']
    simp only [Option.bind_some]
    have hmid : (Image.mk t.buffer N store.width into.height (store.width * N) into.bitDepth).validate N
        = .ok () := packed_validate tl
    obtain ⟨out, o1, o2, o3, o4⟩ := horizontalNeonH_ok cpu st o h hN
      (Image.mk t.buffer N store.width into.height (store.width * N) into.bitDepth) into hf hmid hd rfl
      hsw hdw Th
    refine ⟨out, o1, o2, ?_, ?_⟩
    · rw [if_neg h1]; exact o3
    intro y x c hy hx hc
    rw [o4 y x c hy hx hc]
    simp only [sepFun, if_neg h1, if_neg h2]
    refine congrArg some (hvNeonH_congr cpu st o h Th hx hc ?_)
    intro q hq
    rw [packed_strideOf]
    have hx' : q / N < store.width := Nat.div_lt_of_lt_mul (by rw [Nat.mul_comm]; exact hq)
    have hc' : q % N < N := Nat.mod_lt _ hN.1
    have hq' : q / N * N + q % N = q := by rw [Nat.mul_comm]; exact Nat.div_add_mod q N
    have := t4 y (q / N) (q % N) hy hx' hc'
    rw [← hq', rowPos_pxD]
    simp only [pxD]
    rw [this]
    rfl

theorem resize_neonH {W N : ℕ} {L : Lib} {r : ResamplingFunction} {store into : Image H}
    (ha : AcceptedF W N r store into) (cpu : NeonHalfCpu) (st : Workload) (o : HalfOps H A) (h : VecOps H) :
    ∃ vf hf out, tableOf L r store.height into.height = some vf ∧ tableOf L r store.width into.width = some hf ∧
      ValidTable vf store.height into.height ∧ ValidTable hf store.width into.width ∧
      genericResize W N (formatF16Neon cpu st o h N) L r store into = some (.ok (), out) ∧ SameShape out into ∧
      PaddingMapped N (if store.width = into.width then id else hpadNeonH cpu st o N) into out ∧
      ∀ y x c, y < into.height → x < into.width → c < N →
        sample out.buffer (into.strideOf N) N y x c = some (sepFun N store.width store.height
          into.width into.height (vvNeonH cpu st o h vf) (fun y => hvNeonH cpu st o h N hf into.height y)
          (rowPos o.zeroH store.buffer (store.strideOf N)) y x c) := by
  obtain ⟨c1, c2, c3, _⟩ := checkResize_ok.1 ha.checked
  obtain ⟨vf, ev, Tv, Sv⟩ := table_exists L r (out := into.height) c3.2.1 ha.small.2 (fun hh => (ha.area hh).2)
  obtain ⟨hf, eh, Th, Sh⟩ := table_exists L r (out := into.width) c3.1 ha.small.1 (fun hh => (ha.area hh).1)
  obtain ⟨out, o1, o2, o3, o4⟩ := convolve_neonH (W := W) cpu st o h ha.channels
    (table := tableOf L r) c2 c1 c3.1 c3.2.2.1 ha.sizes ha.fits ev eh Tv Th
  exact ⟨vf, hf, out, ev, eh, Tv, Th, genericResize_conv (F := formatF16Neon cpu st o h N) ha.checked ha.filter ha.sizes o1,
    o2, o3, o4⟩

end PicScale
