import Verif.Model.AlphaX86U16
import Verif.Lemmas.AlphaX86
import Verif.Lemmas.AlphaCheck

namespace PicScale

open Spec

/-! ### registers of 16-bit lanes -/

theorem bytes16_mod (v : ℤ) : bytes16 (v % 65536) = bytes16 v := by
  unfold bytes16
  congr 1
  · omega
  congr 1
  omega

theorem lanes8_mod (f : ℕ → ℤ) : lanes8 (fun i => f i % 65536) = lanes8 f := by
  have : ∀ l : List ℕ, ofLanes16 (l.map fun i => f i % 65536) = ofLanes16 (l.map f) := by
    intro l
    induction l with
    | nil => rfl
    | cons i l ih =>
      unfold ofLanes16 at ih ⊢
      simp only [List.map_cons, List.flatMap_cons, bytes16_mod, ih]
  exact this _

theorem regAt16_mod {l : List ℕ} {k : ℕ} (h : 8 * k + 8 ≤ l.length) :
    regAt16 l k = lanes8 fun i => ((l.getD (8 * k + i) 0 % 65536 : ℕ) : ℤ) := by
  have : lanes8 (fun i => ((l.getD (8 * k + i) 0 % 65536 : ℕ) : ℤ)) = lanes8 fun i => ((l.getD (8 * k + i) 0 : ℕ) : ℤ) := by
    rw [← lanes8_mod fun i => ((l.getD (8 * k + i) 0 : ℕ) : ℤ)]
    apply lanes8_congr
    intro i _
    push_cast
    rfl
  rw [this]
  unfold regAt16 lanes8
  rw [slice_eq_map_range 0 h]
  simp [Function.comp_def]

theorem sseDeinterleave16_of (p : ℕ → ℤ) :
    sseDeinterleave16 (lanes8 p) (lanes8 fun i => p (8 + i)) (lanes8 fun i => p (16 + i))
      (lanes8 fun i => p (24 + i)) =
    (lanes8 fun i => p (4 * i), lanes8 fun i => p (4 * i + 1), lanes8 fun i => p (4 * i + 2),
      lanes8 fun i => p (4 * i + 3)) := rfl

/-- A `u16` from a lane. -/
def u16 (v : ℤ) : ℕ := (v % 65536).toNat

theorem toU16_of (f : ℕ → ℤ) : toU16 (lanes8 f) = (List.range 8).map fun i => u16 (f i) := by
  unfold toU16 lanes8
  rw [lanes16_ofLanes16, List.map_map, List.map_map]
  apply List.map_congr_left
  intro i _
  have : ∀ z : ℤ, i16 z % 65536 = z % 65536 := by
    intro z
    unfold i16
    rw [Int.bmod_def]
    push_cast
    split <;> omega
  simp only [Function.comp_apply, u16, this]

theorem unpacklo16_of (f g : ℕ → ℤ) : unpacklo16 (lanes8 f) (lanes8 g) =
    lanes8 fun i => if i % 2 = 0 then f (i / 2) else g (i / 2) := rfl

theorem unpackhi16_of (f g : ℕ → ℤ) : unpackhi16 (lanes8 f) (lanes8 g) =
    lanes8 fun i => if i % 2 = 0 then f (4 + i / 2) else g (4 + i / 2) := rfl

theorem unpacklo32_of (f g : ℕ → ℤ) : unpacklo32 (lanes8 f) (lanes8 g) =
    lanes8 fun i => if i % 4 < 2 then f (i / 4 * 2 + i % 2) else g (i / 4 * 2 + i % 2) := rfl

theorem unpackhi32_of (f g : ℕ → ℤ) : unpackhi32 (lanes8 f) (lanes8 g) =
    lanes8 fun i => if i % 4 < 2 then f (4 + (i / 4 * 2 + i % 2)) else g (4 + (i / 4 * 2 + i % 2)) := rfl

theorem sseInterleave16_of (r g b a : ℕ → ℤ) :
    sseInterleave16 (lanes8 r) (lanes8 g) (lanes8 b) (lanes8 a) =
      pixels 8 (fun i => u16 (r i)) (fun i => u16 (g i)) (fun i => u16 (b i)) (fun i => u16 (a i)) := by
  unfold sseInterleave16
  simp only [unpacklo16_of, unpackhi16_of, toU16_of]
  rfl

/-- A 256-bit register of sixteen 16-bit lanes. -/
def lanes16x2 (f : ℕ → ℤ) : Reg2 := (lanes8 f, lanes8 fun i => f (8 + i))

set_option maxRecDepth 8000 in
theorem avxDeinterleave16_of (p : ℕ → ℤ) :
    avxDeinterleave16 (lanes16x2 p) (lanes16x2 fun i => p (16 + i)) (lanes16x2 fun i => p (32 + i))
      (lanes16x2 fun i => p (48 + i)) =
    (lanes16x2 fun i => p (4 * i), lanes16x2 fun i => p (4 * i + 1), lanes16x2 fun i => p (4 * i + 2),
      lanes16x2 fun i => p (4 * i + 3)) := rfl

set_option maxRecDepth 8000 in
theorem avxInterleave16_of (r g b a : ℕ → ℤ) :
    avxInterleave16 (lanes16x2 r) (lanes16x2 g) (lanes16x2 b) (lanes16x2 a) =
      pixels 16 (fun i => u16 (r i)) (fun i => u16 (g i)) (fun i => u16 (b i)) (fun i => u16 (a i)) := by
  unfold avxInterleave16 both lanes16x2 permLow permHigh
  simp only [unpacklo16_of, unpackhi16_of, unpacklo32_of, unpackhi32_of, toU16_of]
  rfl

/-! ### chunks of 16-bit pixels -/

/-- A plane transformation computes `lane` of every (colour, alpha) pair. -/
def LaneFn (colour : Reg → Reg → Reg) (lane : ℕ → ℕ → ℤ) : Prop :=
  ∀ f g : ℕ → ℕ, (∀ i, f i < 65536) → (∀ i, g i < 65536) →
    colour (lanes8 fun i => (f i : ℤ)) (lanes8 fun i => (g i : ℤ)) = lanes8 fun i => lane (f i) (g i)

/-- The stored sample. -/
def u16Col (lane : ℕ → ℕ → ℤ) (c a : ℕ) : ℕ := u16 (lane (c % 65536) (a % 65536))

theorem u16_nat {n : ℕ} : u16 (n : ℤ) = n % 65536 := by
  unfold u16; omega

theorem sseChunk16_pixelwise {colour : Reg → Reg → Reg} {lane : ℕ → ℕ → ℤ} (h : LaneFn colour lane) :
    Pixelwise 32 (sseChunk16 colour) (u16Col lane) (· % 65536) := by
  refine pixelwise_pixels (n := 8) rfl fun l hl => ?_
  have hb : ∀ i, l.getD i 0 % 65536 < 65536 := fun i => Nat.mod_lt _ (by norm_num)
  unfold sseChunk16
  rw [regAt16_mod (by omega), regAt16_mod (by omega), regAt16_mod (by omega), regAt16_mod (by omega)]
  simp only [Nat.mul_zero, Nat.zero_add, Nat.mul_one, show 8 * 2 = 16 from rfl, show 8 * 3 = 24 from rfl]
  rw [sseDeinterleave16_of fun i => ((l.getD i 0 % 65536 : ℕ) : ℤ)]
  dsimp only
  rw [h _ _ (fun i => hb (4 * i)) (fun i => hb (4 * i + 3)), h _ _ (fun i => hb (4 * i + 1)) (fun i => hb (4 * i + 3)),
    h _ _ (fun i => hb (4 * i + 2)) (fun i => hb (4 * i + 3)), sseInterleave16_of]
  apply pixels_congr
  intro i _
  refine ⟨rfl, rfl, rfl, ?_⟩
  rw [u16_nat, Nat.mod_mod]

theorem avxChunk16_pixelwise {colour : Reg → Reg → Reg} {lane : ℕ → ℕ → ℤ} (h : LaneFn colour lane) :
    Pixelwise 64 (avxChunk16 colour) (u16Col lane) (· % 65536) := by
  refine pixelwise_pixels (n := 16) rfl fun l hl => ?_
  have hb : ∀ i, l.getD i 0 % 65536 < 65536 := fun i => Nat.mod_lt _ (by norm_num)
  have hr : ∀ k, k < 4 → regAt16x2 l k = lanes16x2 fun i => (fun i => ((l.getD i 0 % 65536 : ℕ) : ℤ)) (16 * k + i) := by
    intro k hk
    unfold regAt16x2 lanes16x2
    rw [regAt16_mod (by omega), regAt16_mod (by omega)]
    congr 1
    · congr 1; funext i; dsimp only; congr 3; omega
    · congr 1; funext i; dsimp only; congr 3; omega
  unfold avxChunk16
  rw [hr 0 (by omega), hr 1 (by omega), hr 2 (by omega), hr 3 (by omega)]
  simp only [Nat.mul_zero, Nat.zero_add, Nat.mul_one, show 16 * 2 = 32 from rfl, show 16 * 3 = 48 from rfl]
  rw [avxDeinterleave16_of fun i => ((l.getD i 0 % 65536 : ℕ) : ℤ)]
  dsimp only
  have h2 : ∀ f g : ℕ → ℕ, (∀ i, f i < 65536) → (∀ i, g i < 65536) →
      both colour (lanes16x2 fun i => (f i : ℤ)) (lanes16x2 fun i => (g i : ℤ)) = lanes16x2 fun i => lane (f i) (g i) := by
    intro f g hf hg
    unfold both lanes16x2
    dsimp only
    rw [h f g hf hg, h (fun i => f (8 + i)) (fun i => g (8 + i)) (fun i => hf _) (fun i => hg _)]
  rw [h2 _ _ (fun i => hb (4 * i)) (fun i => hb (4 * i + 3)), h2 _ _ (fun i => hb (4 * i + 1)) (fun i => hb (4 * i + 3)),
    h2 _ _ (fun i => hb (4 * i + 2)) (fun i => hb (4 * i + 3)), avxInterleave16_of]
  apply pixels_congr
  intro i _
  refine ⟨rfl, rfl, rfl, ?_⟩
  rw [u16_nat, Nat.mod_mod]

/-! ### lanes -/

theorem srli32_of (n : ℕ) (f : ℕ → ℤ) : srli32 n (lanes4 f) =
    lanes4 fun i => (i32 (f i) % 4294967296) >>> n := by
  unfold srli32 lanes4
  rw [lanes32_ofLanes32, List.map_map, List.map_map]
  rfl

theorem set1epi32_of (v : ℤ) : set1epi32 v = lanes4 fun _ => v := by
  show bytes32 v ++ bytes32 v ++ bytes32 v ++ bytes32 v = bytes32 v ++ (bytes32 v ++ (bytes32 v ++ (bytes32 v ++ [])))
  simp

theorem madd16_of {f g : ℕ → ℕ} (hf : ∀ i, f i < 65536) (hg : ∀ i, g i < 65536) :
    madd16 (lanes4 fun i => (f i : ℤ)) (lanes4 fun i => (g i : ℤ)) =
      lanes4 fun i => i32 (i16 (f i : ℤ) * i16 (g i : ℤ)) := by
  have hl : ∀ k : ℕ → ℕ, (∀ i, k i < 65536) → ∀ l : List ℕ,
      lanes16 (ofLanes32 (l.map fun i => (k i : ℤ))) = l.flatMap fun i => [i16 (k i : ℤ), 0] := by
    intro k hk l
    induction l with
    | nil => rfl
    | cons i l ih =>
      have e : ofLanes32 ((i :: l).map fun i => (k i : ℤ)) =
          ofLanes16 [(k i : ℤ), 0] ++ ofLanes32 (l.map fun i => (k i : ℤ)) := by
        have hb := bytes32_u16 (v := (k i : ℤ)) (by omega) (by have := hk i; omega)
        show bytes32 (k i : ℤ) ++ _ = _
        rw [hb]
        rfl
      rw [e]
      have e2 : ∀ t, lanes16 (ofLanes16 [(k i : ℤ), 0] ++ t) = lanes16 (ofLanes16 [(k i : ℤ), 0]) ++ lanes16 t := fun t => rfl
      rw [e2, lanes16_ofLanes16, ih]
      rfl
  have hm : ∀ l : List ℕ, maddLanes (l.flatMap fun i => [i16 (f i : ℤ), 0]) (l.flatMap fun i => [i16 (g i : ℤ), 0]) =
      l.map fun i => i32 (i16 (f i : ℤ) * i16 (g i : ℤ)) := by
    intro l
    induction l with
    | nil => rfl
    | cons i l ih =>
      show i32 (i16 (f i : ℤ) * i16 (g i : ℤ) + 0 * 0) ::
        maddLanes (l.flatMap fun i => [i16 (f i : ℤ), 0]) (l.flatMap fun i => [i16 (g i : ℤ), 0]) = _
      rw [ih]
      simp
  unfold madd16 lanes4
  rw [hl f hf, hl g hg, hm]

/-- The lane of `_mm_div_by(_mm_madd_epi16(…))`. -/
def intLane (k : ℕ) (c a : ℕ) : ℤ :=
  let w := i32 (i32 (i16 (c : ℤ) * i16 (a : ℤ)) + i32 (2 ^ (k - 1)))
  (i32 (w + i32 ((w % 4294967296) >>> k)) % 4294967296) >>> k

theorem u16_bounds {f : ℕ → ℕ} (hf : ∀ i, f i < 65536) : (∀ i, (0 : ℤ) ≤ (f i : ℤ)) ∧ ∀ i, (f i : ℤ) < 65536 :=
  ⟨fun i => by omega, fun i => by have := hf i; omega⟩

theorem i32_i32' (v : ℤ) : i32 (i32 v) = i32 v := by simp [i32]

theorem premulLanesInt_lane (k : ℕ) :
    LaneFn (premulLanesInt k) fun c a => max 0 (min (i32 (intLane k c a)) 65535) := by
  intro f g hf hg
  unfold premulLanesInt divByLanes
  rw [unpacklo16_zero (u16_bounds hf).1 (u16_bounds hf).2, unpackhi16_zero (u16_bounds hf).1 (u16_bounds hf).2,
    unpacklo16_zero (u16_bounds hg).1 (u16_bounds hg).2, unpackhi16_zero (u16_bounds hg).1 (u16_bounds hg).2,
    madd16_of hf hg, madd16_of (f := fun i => f (4 + i)) (g := fun i => g (4 + i)) (fun i => hf _) (fun i => hg _)]
  simp only [set1epi32_of, add32_of, srli32_of, packus32_of, i32_i32']
  apply lanes8_congr
  intro i hi
  unfold intLane
  dsimp only
  split_ifs with h
  · rfl
  · rw [show 4 + (i - 4) = i by omega]

theorem i32_cvt1 (q : ℚ) : i32 (cvt1 q) = cvt1 q := i32_eq_self (cvt1_range q).1 (cvt1_range q).2

theorem premulLanesSse_lane (scale : ℚ) : LaneFn (premulLanesSse scale) fun c a =>
    max (-32768) (min (cvt1 (F32.mul (F32.mul ((c : ℕ) : ℚ) scale) ((a : ℕ) : ℚ))) 32767) := by
  intro f g hf hg
  unfold premulLanesSse
  rw [unpacklo16_zero (u16_bounds hf).1 (u16_bounds hf).2, unpackhi16_zero (u16_bounds hf).1 (u16_bounds hf).2,
    unpacklo16_zero (u16_bounds hg).1 (u16_bounds hg).2, unpackhi16_zero (u16_bounds hg).1 (u16_bounds hg).2,
    cvtepi32ps_of hf, cvtepi32ps_of hg, cvtepi32ps_of (k := fun i => f (4 + i)) (fun i => hf _),
    cvtepi32ps_of (k := fun i => g (4 + i)) (fun i => hg _)]
  simp only [set1ps_of, mulps_of, cvtpsepi32_of, packs32_of]
  apply lanes8_congr
  intro i hi
  split_ifs with h
  · rw [i32_cvt1]
  · rw [show 4 + (i - 4) = i by omega, i32_cvt1]

/-- One lane of `_mm256_scale_by_alpha` before packing. -/
def scaleLane (fma : Bool) (c : ℕ) (s : ℚ) : ℤ :=
  cvt1 (if fma then F32.rnd (((c : ℕ) : ℚ) * s + 1 / 2) else ((F32.rhe (F32.mul ((c : ℕ) : ℚ) s) : ℤ) : ℚ))

theorem scaleQuarter_of (fma : Bool) {f : ℕ → ℕ} (hf : ∀ i, f i < 65536) (s : ℕ → ℚ) :
    scaleQuarter fma (lanes4 fun i => (f i : ℤ)) ((List.range 4).map s) = lanes4 fun i => scaleLane fma (f i) (s i) := by
  unfold scaleQuarter scaleLane
  rw [cvtepi32ps_of hf]
  cases fma
  · simp only [Bool.false_eq_true, if_false]
    rw [mulps_of]
    unfold roundps
    rw [List.map_map, ← cvtpsepi32_of]
    rfl
  · simp only [if_true]
    unfold fmaddps
    rw [set1ps_of, zipWith_map_range, zipWith_map_range, cvtpsepi32_of]

theorem scaleByAlpha_of (fma : Bool) {f : ℕ → ℕ} (hf : ∀ i, f i < 65536) (s : ℕ → ℚ) :
    scaleByAlpha fma (lanes8 fun i => (f i : ℤ)) ((List.range 4).map s) ((List.range 4).map fun i => s (4 + i)) =
      lanes8 fun i => max 0 (min (scaleLane fma (f i) (s i)) 65535) := by
  unfold scaleByAlpha
  rw [unpacklo16_zero (u16_bounds hf).1 (u16_bounds hf).2, unpackhi16_zero (u16_bounds hf).1 (u16_bounds hf).2,
    scaleQuarter_of fma hf, scaleQuarter_of fma (f := fun i => f (4 + i)) (fun i => hf _), packus32_of]
  apply lanes8_congr
  intro i hi
  split_ifs with h
  · rw [scaleLane, i32_cvt1]
  · rw [show 4 + (i - 4) = i by omega, scaleLane, i32_cvt1]

theorem premulLanesAvx_lane (fma : Bool) (scale : ℚ) : LaneFn (premulLanesAvx fma scale) fun c a =>
    max 0 (min (scaleLane fma c (F32.mul ((a : ℕ) : ℚ) scale)) 65535) := by
  intro f g hf hg
  unfold premulLanesAvx
  rw [unpacklo16_zero (u16_bounds hg).1 (u16_bounds hg).2, unpackhi16_zero (u16_bounds hg).1 (u16_bounds hg).2,
    cvtepi32ps_of hg, cvtepi32ps_of (k := fun i => g (4 + i)) (fun i => hg _), set1ps_of, mulps_of, mulps_of]
  exact scaleByAlpha_of fma hf fun i => F32.mul ((g i : ℕ) : ℚ) scale

set_option maxRecDepth 8000 in
theorem cmpeq16_of {g : ℕ → ℕ} (hg : ∀ i, g i < 65536) : cmpeq16 (lanes8 fun i => (g i : ℤ)) setzero =
    lanes8 fun i => if g i = 0 then -1 else 0 := by
  have hz : setzero = lanes8 fun _ => 0 := rfl
  rw [hz]
  unfold cmpeq16 lanes8
  rw [lanes16_ofLanes16, lanes16_ofLanes16, List.map_map, List.map_map, zipWith_map_range]
  refine congrArg ofLanes16 (List.map_congr_left fun i _ => ?_)
  have : i16 ((g i : ℕ) : ℤ) = i16 0 ↔ g i = 0 := by
    have := hg i
    unfold i16
    rw [Int.bmod_def, Int.bmod_def]
    push_cast
    split <;> omega
  simp only [Function.comp_apply, this]

theorem blendv8_lanes (f h m : ℕ → ℤ) (hm : ∀ i, m i = 0 ∨ m i = -1) :
    blendv8 (lanes8 f) (lanes8 h) (lanes8 m) = lanes8 fun i => if m i = 0 then f i else h i := by
  have : ∀ l : List ℕ, blendv8 (ofLanes16 (l.map f)) (ofLanes16 (l.map h)) (ofLanes16 (l.map m)) =
      ofLanes16 (l.map fun i => if m i = 0 then f i else h i) := by
    intro l
    induction l with
    | nil => rfl
    | cons i l ih =>
      have e : blendv8 (ofLanes16 ((i :: l).map f)) (ofLanes16 ((i :: l).map h)) (ofLanes16 ((i :: l).map m)) =
          blend1 (f i % 256).toNat (h i % 256).toNat (m i % 256).toNat ::
          blend1 (f i / 256 % 256).toNat (h i / 256 % 256).toNat (m i / 256 % 256).toNat ::
          blendv8 (ofLanes16 (l.map f)) (ofLanes16 (l.map h)) (ofLanes16 (l.map m)) := rfl
      rw [e, ih]
      rcases hm i with h0 | h0 <;> simp only [List.map_cons, h0] <;> rfl
  exact this _

theorem rcp_lanes (rcp : ℚ → ℚ) (M : ℕ) {g : ℕ → ℕ} (hg : ∀ i, g i < 65536) :
    alphaRecip rcp M (lanes4 fun i => (g i : ℤ)) =
      (List.range 4).map fun i => F32.mul (rcp ((g i : ℕ) : ℚ)) (F32.rnd M) := by
  unfold alphaRecip
  rw [cvtepi32ps_of hg, rcpps_of, set1ps_of, mulps_of]

theorem addps_of (f g : ℕ → ℚ) : addps ((List.range 4).map f) ((List.range 4).map g) =
    (List.range 4).map fun i => F32.add (f i) (g i) := by
  unfold addps
  rw [zipWith_map_range]

/-- One lane of `sse_unpremultiply_row_u16` before packing. -/
def unpremulLane16 (rcp : ℚ → ℚ) (M c a : ℕ) : ℤ :=
  cvt1 (F32.add (1 / 2) (F32.mul ((c : ℕ) : ℚ) (F32.mul (rcp ((a : ℕ) : ℚ)) (F32.rnd M))))

theorem unpremulLanes16Sse_lane (rcp : ℚ → ℚ) (M : ℕ) : LaneFn (unpremulLanes16Sse rcp M) fun c a =>
    if a = 0 then (c : ℤ) else max (-32768) (min (unpremulLane16 rcp M c a) 32767) := by
  intro f g hf hg
  unfold unpremulLanes16Sse
  rw [unpacklo16_zero (u16_bounds hf).1 (u16_bounds hf).2, unpackhi16_zero (u16_bounds hf).1 (u16_bounds hf).2,
    unpacklo16_zero (u16_bounds hg).1 (u16_bounds hg).2, unpackhi16_zero (u16_bounds hg).1 (u16_bounds hg).2,
    cvtepi32ps_of hf, cvtepi32ps_of (k := fun i => f (4 + i)) (fun i => hf _), rcp_lanes rcp M hg,
    rcp_lanes rcp M (g := fun i => g (4 + i)) (fun i => hg _)]
  simp only [set1ps_of, mulps_of, addps_of, cvtpsepi32_of, packs32_of]
  rw [cmpeq16_of hg, blendv8_lanes _ _ _ (fun i => by split <;> simp)]
  apply lanes8_congr
  intro i hi
  by_cases h0 : g i = 0
  · simp [h0]
  · simp only [h0, if_false, if_true]
    unfold unpremulLane16
    split_ifs with h
    · rw [i32_cvt1]
    · rw [show 4 + (i - 4) = i by omega, i32_cvt1]

theorem unpremulLanes16Avx_lane (fma : Bool) (rcp : ℚ → ℚ) (M : ℕ) : LaneFn (unpremulLanes16Avx fma rcp M) fun c a =>
    if a = 0 then (c : ℤ) else max 0 (min (scaleLane fma c (F32.mul (rcp ((a : ℕ) : ℚ)) (F32.rnd M))) 65535) := by
  intro f g hf hg
  unfold unpremulLanes16Avx
  rw [unpacklo16_zero (u16_bounds hg).1 (u16_bounds hg).2, unpackhi16_zero (u16_bounds hg).1 (u16_bounds hg).2,
    rcp_lanes rcp M hg, rcp_lanes rcp M (g := fun i => g (4 + i)) (fun i => hg _)]
  dsimp only
  rw [scaleByAlpha_of fma hf fun i => F32.mul (rcp ((g i : ℕ) : ℚ)) (F32.rnd M), cmpeq16_of hg,
    blendv8_lanes _ _ _ (fun i => by split <;> simp)]
  apply lanes8_congr
  intro i hi
  by_cases h0 : g i = 0
  · simp [h0]
  · simp only [h0, if_false, if_true]

end PicScale
