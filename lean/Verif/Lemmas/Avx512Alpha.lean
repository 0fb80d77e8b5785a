import Verif.Model.Avx512Alpha
import Verif.Lemmas.AlphaX86

/-! The AVX-512 alpha handlers, pixel by pixel. -/

namespace PicScale

/-! ### Permutations of bytes commute with maps -/

theorem permutex2_map (w : ℕ) (p : ℕ → ℕ) (a idx b : List ℕ) :
    permutex2 w (a.map p) idx (b.map p) = (permutex2 w a idx b).map p := by
  unfold permutex2
  simp [List.map_flatMap, List.map_take, List.map_drop]

theorem lane512_map (p : ℕ → ℕ) (v : List ℕ) (j : ℕ) : lane512 (v.map p) j = (lane512 v j).map p := by
  unfold lane512
  simp [List.map_take, List.map_drop]

theorem lane512_length {v : List ℕ} (h : v.length = 64) {j : ℕ} (hj : j < 4) : (lane512 v j).length = 16 := by
  unfold lane512
  rw [List.length_take, List.length_drop, h]; omega

theorem shuffle8_map {p : ℕ → ℕ} {v : List ℕ} (h : v.length = 16) {m : List ℤ} (hm : ∀ i ∈ m, 0 ≤ i ∧ i < 16) :
    shuffle8 (v.map p) m = (shuffle8 v m).map p := by
  unfold shuffle8
  rw [List.map_map]
  refine List.map_congr_left fun i hi => ?_
  obtain ⟨h0, h1⟩ := hm i hi
  have hl : i.toNat < v.length := by omega
  simp [h0.not_gt, List.getD_eq_getElem?_getD, List.getElem?_eq_getElem hl]

theorem shuffle512_map {p : ℕ → ℕ} {v : List ℕ} (h : v.length = 64) {m : List ℤ} (hm : ∀ i ∈ m, 0 ≤ i ∧ i < 16) :
    shuffle512 (v.map p) m = (shuffle512 v m).map p := by
  unfold shuffle512
  simp only [lane512_map]
  rw [shuffle8_map (lane512_length h (by omega)) hm, shuffle8_map (lane512_length h (by omega)) hm,
    shuffle8_map (lane512_length h (by omega)) hm, shuffle8_map (lane512_length h (by omega)) hm]
  simp only [List.map_append]

theorem interleave_map (p : ℕ → ℕ) : ∀ a b : List ℕ, interleave (a.map p) (b.map p) = (interleave a b).map p
  | [], _ => by simp [interleave]
  | _ :: _, [] => by simp [interleave]
  | _ :: as, _ :: bs => by simp [interleave, interleave_map p as bs]

theorem unpacklo8_map (p : ℕ → ℕ) (a b : List ℕ) : unpacklo8 (a.map p) (b.map p) = (unpacklo8 a b).map p := by
  unfold unpacklo8
  rw [← List.map_take, ← List.map_take, interleave_map]

theorem unpackhi8_map (p : ℕ → ℕ) (a b : List ℕ) : unpackhi8 (a.map p) (b.map p) = (unpackhi8 a b).map p := by
  unfold unpackhi8
  rw [← List.map_drop, ← List.map_drop, interleave_map]

theorem perLane_map {f : Reg → Reg → Reg} {p : ℕ → ℕ} (hf : ∀ a b, f (a.map p) (b.map p) = (f a b).map p)
    (a b : List ℕ) : perLane f (a.map p) (b.map p) = (perLane f a b).map p := by
  unfold perLane
  simp only [lane512_map, hf, List.map_append]

/-! ### Planes -/

/-- A 512-bit register given by its 64 bytes. -/
def reg64 (p : ℕ → ℕ) : List ℕ := (List.range 64).map p

theorem reg64_congr {f g : ℕ → ℕ} (h : ∀ i, i < 64 → f i = g i) : reg64 f = reg64 g :=
  List.map_congr_left fun i hi => h i (by simpa using hi)

theorem reg64_map (p q : ℕ → ℕ) : (reg64 q).map p = reg64 fun i => p (q i) := by
  unfold reg64; rw [List.map_map]; rfl

theorem reg64_len (p : ℕ → ℕ) : (reg64 p).length = 64 := by simp [reg64]

theorem planeMask_range : ∀ i ∈ planeMask, 0 ≤ i ∧ i < 16 := by decide

theorem avx512Deinterleave_map (v : Bool) (p : ℕ → ℕ) {r0 r1 r2 r3 : List ℕ} (h0 : r0.length = 64)
    (h1 : r1.length = 64) (h2 : r2.length = 64) (h3 : r3.length = 64) :
    avx512Deinterleave v (r0.map p) (r1.map p) (r2.map p) (r3.map p) =
      ((avx512Deinterleave v r0 r1 r2 r3).1.map p, (avx512Deinterleave v r0 r1 r2 r3).2.1.map p,
        (avx512Deinterleave v r0 r1 r2 r3).2.2.1.map p, (avx512Deinterleave v r0 r1 r2 r3).2.2.2.map p) := by
  cases v
  · simp only [avx512Deinterleave, Bool.false_eq_true, if_false, shuffle512_map h0 planeMask_range,
      shuffle512_map h1 planeMask_range, shuffle512_map h2 planeMask_range, shuffle512_map h3 planeMask_range,
      permutex2_map]
  · simp only [avx512Deinterleave, if_true, permutex2_map]

theorem avx512Zip_map (v : Bool) (p : ℕ → ℕ) (a b : List ℕ) :
    avx512Zip v (a.map p) (b.map p) = ((avx512Zip v a b).1.map p, (avx512Zip v a b).2.map p) := by
  cases v
  · simp only [avx512Zip, Bool.false_eq_true, if_false, perLane_map (unpacklo8_map p), perLane_map (unpackhi8_map p),
      permutex2_map]
  · simp only [avx512Zip, if_true, permutex2_map]

theorem avx512Interleave_map (v : Bool) (p : ℕ → ℕ) (a b c d : List ℕ) :
    avx512Interleave v (a.map p) (b.map p) (c.map p) (d.map p) = (avx512Interleave v a b c d).map p := by
  simp only [avx512Interleave, avx512Zip_map, List.map_append]

theorem avx512Deinterleave_id : ∀ v : Bool,
    avx512Deinterleave v (reg64 fun i => i) (reg64 fun i => 64 + i) (reg64 fun i => 128 + i)
      (reg64 fun i => 192 + i) =
    (reg64 fun i => 4 * i, reg64 fun i => 4 * i + 1, reg64 fun i => 4 * i + 2,
      reg64 fun i => 4 * i + 3) := by decide +kernel

theorem avx512Deinterleave_of (v : Bool) (p : ℕ → ℕ) :
    avx512Deinterleave v (reg64 p) (reg64 fun i => p (64 + i)) (reg64 fun i => p (128 + i))
      (reg64 fun i => p (192 + i)) =
    (reg64 fun i => p (4 * i), reg64 fun i => p (4 * i + 1), reg64 fun i => p (4 * i + 2),
      reg64 fun i => p (4 * i + 3)) := by
  have := avx512Deinterleave_map v p (reg64_len fun i => i) (reg64_len fun i => 64 + i)
    (reg64_len fun i => 128 + i) (reg64_len fun i => 192 + i)
  rw [avx512Deinterleave_id v] at this
  simpa only [reg64_map] using this

theorem avx512Interleave_id : ∀ v : Bool,
    avx512Interleave v (reg64 fun i => i) (reg64 fun i => 64 + i) (reg64 fun i => 128 + i)
      (reg64 fun i => 192 + i) = pixels 64 (fun i => i) (fun i => 64 + i) (fun i => 128 + i) (fun i => 192 + i) := by
  decide +kernel

theorem pixels_map (p : ℕ → ℕ) (n : ℕ) (r g b a : ℕ → ℕ) :
    (pixels n r g b a).map p = pixels n (fun i => p (r i)) (fun i => p (g i)) (fun i => p (b i)) (fun i => p (a i)) := by
  unfold pixels
  rw [List.map_flatMap]
  rfl

theorem avx512Interleave_of (v : Bool) (r g b a : ℕ → ℕ) :
    avx512Interleave v (reg64 r) (reg64 g) (reg64 b) (reg64 a) = pixels 64 r g b a := by
  let p : ℕ → ℕ := fun i => if i < 64 then r i else if i < 128 then g (i - 64) else if i < 192 then b (i - 128) else a (i - 192)
  have h := avx512Interleave_map v p (reg64 fun i => i) (reg64 fun i => 64 + i) (reg64 fun i => 128 + i)
    (reg64 fun i => 192 + i)
  rw [avx512Interleave_id v, pixels_map] at h
  simp only [reg64_map] at h
  have e0 : ∀ i, i < 64 → p i = r i := fun i hi => if_pos hi
  have e1 : ∀ i, i < 64 → p (64 + i) = g i := fun i hi => by
    show (if 64 + i < 64 then _ else if 64 + i < 128 then g (64 + i - 64) else _) = _
    rw [if_neg (by omega), if_pos (by omega), Nat.add_sub_cancel_left]
  have e2 : ∀ i, i < 64 → p (128 + i) = b i := fun i hi => by
    show (if 128 + i < 64 then _ else if 128 + i < 128 then _ else if 128 + i < 192 then b (128 + i - 128) else _) = _
    rw [if_neg (by omega), if_neg (by omega), if_pos (by omega), Nat.add_sub_cancel_left]
  have e3 : ∀ i, i < 64 → p (192 + i) = a i := fun i hi => by
    show (if 192 + i < 64 then _ else if 192 + i < 128 then _ else if 192 + i < 192 then _ else a (192 + i - 192)) = _
    rw [if_neg (by omega), if_neg (by omega), if_neg (by omega), Nat.add_sub_cancel_left]
  rw [reg64_congr e0, reg64_congr e1, reg64_congr e2, reg64_congr e3] at h
  rw [h]
  exact pixels_congr fun i hi => ⟨e0 i hi, e1 i hi, e2 i hi, e3 i hi⟩

/-! ### Lanes -/

theorem lane512_bytes (p : ℕ → ℕ) {j : ℕ} (hj : j < 4) : lane512 (reg64 p) j = bytesOf fun i => p (16 * j + i) := by
  have : ∀ j : Fin 4, lane512 (reg64 fun i => i) j = bytesOf fun i => 16 * (j : ℕ) + i := by decide +kernel
  have h := congrArg (List.map p) (this ⟨j, hj⟩)
  rw [← lane512_map, reg64_map] at h
  rw [h]
  unfold bytesOf
  simp [List.map_map, Function.comp_def]

theorem reg64_split (p : ℕ → ℕ) : reg64 p = (bytesOf fun i => p i) ++ (bytesOf fun i => p (16 + i)) ++
    (bytesOf fun i => p (32 + i)) ++ bytesOf fun i => p (48 + i) := by
  have : reg64 (fun i => i) = (bytesOf fun i => i) ++ (bytesOf fun i => 16 + i) ++
    (bytesOf fun i => 32 + i) ++ bytesOf fun i => 48 + i := by decide +kernel
  have h := congrArg (List.map p) this
  rw [reg64_map] at h
  rw [h]
  unfold bytesOf
  simp [List.map_map, Function.comp_def]

theorem perLane_of {f : Reg → Reg → Reg} {g : ℕ → ℕ → ℕ} {x y : ℕ → ℕ}
    (h : ∀ k, f (bytesOf fun i => x (16 * k + i)) (bytesOf fun i => y (16 * k + i)) =
      bytesOf fun i => g (x (16 * k + i)) (y (16 * k + i))) :
    perLane f (reg64 x) (reg64 y) = reg64 fun i => g (x i) (y i) := by
  unfold perLane
  rw [lane512_bytes _ (by omega), lane512_bytes _ (by omega), lane512_bytes _ (by omega), lane512_bytes _ (by omega),
    lane512_bytes _ (by omega), lane512_bytes _ (by omega), lane512_bytes _ (by omega), lane512_bytes _ (by omega),
    h, h, h, h, reg64_split]
  simp only [Nat.mul_zero, Nat.zero_add, Nat.mul_one, show 16 * 2 = 32 from rfl, show 16 * 3 = 48 from rfl]

theorem shuffle512_alpha (x : ℕ → ℕ) : shuffle512 (reg64 x) [3, 3, 3, 3, 7, 7, 7, 7, 11, 11, 11, 11, 15, 15, 15, 15] =
    reg64 fun i => x (4 * (i / 4) + 3) := by
  have h : shuffle512 (reg64 fun i => i) [3, 3, 3, 3, 7, 7, 7, 7, 11, 11, 11, 11, 15, 15, 15, 15] =
    reg64 fun i => 4 * (i / 4) + 3 := by decide +kernel
  have h' := congrArg (List.map x) h
  rw [← shuffle512_map (reg64_len _) (by decide), reg64_map, reg64_map] at h'
  exact h'

theorem regAt512_eq {l : List ℕ} {k : ℕ} (h : 64 * k + 64 ≤ l.length) :
    regAt512 l k = reg64 fun i => l.getD (64 * k + i) 0 % 256 := by
  unfold regAt512 reg64
  apply List.ext_getElem?
  intro i
  by_cases hi : i < 64
  · have hl : 64 * k + i < l.length := by omega
    simp [List.getElem?_map, List.getElem?_take, List.getElem?_drop, hi, List.getElem?_eq_getElem hl,
      List.getD_eq_getElem?_getD]
  · simp [List.getElem?_map, List.getElem?_take, List.getElem?_drop, hi]

theorem reg64_pixels (r : ℕ → ℕ) :
    reg64 r = pixels 16 (fun i => r (4 * i)) (fun i => r (4 * i + 1)) (fun i => r (4 * i + 2)) (fun i => r (4 * i + 3)) := by
  have h : reg64 (fun i => i) = pixels 16 (fun i => 4 * i) (fun i => 4 * i + 1) (fun i => 4 * i + 2) (fun i => 4 * i + 3) := by
    decide +kernel
  have h' := congrArg (List.map r) h
  rw [reg64_map, pixels_map] at h'
  exact h'

theorem avx512PremulChunk_pixelwise : Pixelwise 64 avx512PremulChunk premulX (fun a => premulX a a) := by
  refine pixelwise_pixels (n := 16) rfl fun l hl => ?_
  have hb : ∀ i, l.getD i 0 % 256 < 256 := fun i => Nat.mod_lt _ (by norm_num)
  unfold avx512PremulChunk
  rw [regAt512_eq (by omega)]
  simp only [Nat.mul_zero, Nat.zero_add]
  rw [shuffle512_alpha, perLane_of (g := fun c a => div255x (c * a))
    (fun k => premulLanes_of (fun i => hb _) (fun i => hb _)), reg64_pixels]
  apply pixels_congr
  intro i hi
  unfold premulX
  refine ⟨?_, ?_, ?_, ?_⟩ <;> · congr 2; congr 2; omega

theorem avx512UnpremulChunk_pixelwise (v : Bool) (rcp : ℚ → ℚ) :
    Pixelwise 256 (avx512UnpremulChunk v rcp) (unpremulAvx rcp) (· % 256) := by
  refine pixelwise_pixels (n := 64) rfl fun l hl => ?_
  have hb : ∀ i, l.getD i 0 % 256 < 256 := fun i => Nat.mod_lt _ (by norm_num)
  unfold avx512UnpremulChunk
  rw [regAt512_eq (by omega), regAt512_eq (by omega), regAt512_eq (by omega), regAt512_eq (by omega)]
  simp only [Nat.mul_zero, Nat.zero_add, Nat.mul_one, show 64 * 2 = 128 from rfl, show 64 * 3 = 192 from rfl]
  rw [avx512Deinterleave_of v fun i => l.getD i 0 % 256]
  dsimp only
  have hbo : ∀ f g : ℕ → ℕ, (∀ i, f i < 256) → (∀ i, g i < 256) →
      perLane (unpremulLanes rcp packus32) (reg64 f) (reg64 g) = reg64 fun i =>
        if g i = 0 then 0 else (max 0 (min (i16 (max 0 (min (unpremulLane rcp (f i) (g i)) 65535))) 255)).toNat :=
    fun f g hf hg => perLane_of (g := fun c a => if a = 0 then 0
        else (max 0 (min (i16 (max 0 (min (unpremulLane rcp c a) 65535))) 255)).toNat)
      fun k => unpremulLanes_of rcp (sat := fun v => max 0 (min v 65535)) packus32_of (fun i => hf _) (fun i => hg _)
  rw [hbo _ _ (fun i => hb _) (fun i => hb _), hbo _ _ (fun i => hb _) (fun i => hb _),
    hbo _ _ (fun i => hb _) (fun i => hb _), avx512Interleave_of]
  rfl

end PicScale
