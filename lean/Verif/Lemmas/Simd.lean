import Verif.Model.SimdVertical
import Verif.Lemmas.Fixed

namespace PicScale

open Finset

/-! Lanes and bytes -/

theorem i16_congr {a b : ℤ} (h : a % 65536 = b % 65536) : i16 a = i16 b := by
  unfold i16
  rw [Int.bmod_def, Int.bmod_def]
  push_cast
  rw [h]

theorem i32_congr {a b : ℤ} (h : a % 4294967296 = b % 4294967296) : i32 a = i32 b := by
  unfold i32
  rw [Int.bmod_def, Int.bmod_def]
  push_cast
  rw [h]

theorem i16_eq_self {v : ℤ} (h1 : -32768 ≤ v) (h2 : v < 32768) : i16 v = v := by
  unfold i16
  rw [Int.bmod_def]
  push_cast
  split <;> omega

theorem i16_range (v : ℤ) : -32768 ≤ i16 v ∧ i16 v < 32768 := by
  unfold i16
  rw [Int.bmod_def]
  push_cast
  split <;> omega

theorem i32_range (v : ℤ) : -2147483648 ≤ i32 v ∧ i32 v < 2147483648 := by
  unfold i32
  rw [Int.bmod_def]
  push_cast
  split <;> omega

@[simp] theorem i16_i16 (v : ℤ) : i16 (i16 v) = i16 v := i16_eq_self (i16_range v).1 (i16_range v).2

@[simp] theorem i16_add_i16 (a b : ℤ) : i16 (a + i16 b) = i16 (a + b) := by simp [i16]
@[simp] theorem i16_i16_add (a b : ℤ) : i16 (i16 a + b) = i16 (a + b) := by simp [i16]

@[simp] theorem i16_bytes (w : ℤ) :
    i16 (((w % 256).toNat : ℤ) + 256 * ((w / 256 % 256).toNat : ℤ)) = i16 w := by
  apply i16_congr; omega

@[simp] theorem i32_bytes (w : ℤ) :
    i32 (((w % 256).toNat : ℤ) + 256 * ((w / 256 % 256).toNat : ℤ) +
      65536 * ((w / 65536 % 256).toNat : ℤ) + 16777216 * ((w / 16777216 % 256).toNat : ℤ)) = i32 w := by
  apply i32_congr; omega

theorem lanes16_cons (a b : ℕ) (t : Reg) :
    lanes16 (a :: b :: t) = i16 ((a : ℤ) + 256 * (b : ℤ)) :: lanes16 t := rfl

theorem lanes16_nil : lanes16 [] = [] := rfl

@[simp] theorem lanes16_ofLanes16 (l : List ℤ) : lanes16 (ofLanes16 l) = l.map i16 := by
  induction l with
  | nil => rfl
  | cons a l ih =>
    rw [show ofLanes16 (a :: l) = (a % 256).toNat :: (a / 256 % 256).toNat :: ofLanes16 l from rfl,
      lanes16_cons, ih, i16_bytes]
    rfl

@[simp] theorem lanes32_ofLanes32 (l : List ℤ) : lanes32 (ofLanes32 l) = l.map i32 := by
  induction l with
  | nil => rfl
  | cons a l ih =>
    rw [show ofLanes32 (a :: l) = (a % 256).toNat :: (a / 256 % 256).toNat ::
      (a / 65536 % 256).toNat :: (a / 16777216 % 256).toNat :: ofLanes32 l from rfl]
    unfold lanes32
    rw [ih, i32_bytes]
    rfl

/-- Sixteen bytes given by a function. -/
def bytesOf (p : ℕ → ℕ) : Reg := (List.range 16).map p

theorem bytesOf_eq (p : ℕ → ℕ) : bytesOf p = [p 0, p 1, p 2, p 3, p 4, p 5, p 6, p 7, p 8, p 9, p 10,
    p 11, p 12, p 13, p 14, p 15] := rfl

theorem ofLanes32_congr {l m : List ℤ} (h : l.map i32 = m.map i32) : ofLanes32 l = ofLanes32 m := by
  induction l generalizing m with
  | nil => cases m with
    | nil => rfl
    | cons => simp at h
  | cons a l ih => cases m with
    | nil => simp at h
    | cons b m =>
      simp only [List.map_cons, List.cons.injEq] at h
      have h1 := ih h.2
      have hb : bytes32 a = bytes32 b := by
        have e : a % 4294967296 = b % 4294967296 := by
          have := h.1
          unfold i32 at this
          rw [Int.bmod_def, Int.bmod_def] at this
          push_cast at this
          split at this <;> split at this <;> omega
        unfold bytes32
        congr 1
        · omega
        congr 1
        · omega
        congr 1
        · omega
        congr 1
        omega
      show bytes32 a ++ ofLanes32 l = bytes32 b ++ ofLanes32 m
      rw [h1, hb]

/-- Four accumulator registers holding `f 0 … f 15`. -/
def Quad.of (f : ℕ → ℤ) : Quad :=
  ⟨ofLanes32 [f 0, f 1, f 2, f 3], ofLanes32 [f 4, f 5, f 6, f 7],
    ofLanes32 [f 8, f 9, f 10, f 11], ofLanes32 [f 12, f 13, f 14, f 15]⟩

theorem Quad.init_eq : Quad.init = Quad.of fun _ => 16384 := rfl

theorem i16_byte {b : ℕ} (h : b < 256) : i16 ((b : ℤ) + 256 * ((0 : ℕ) : ℤ)) = b := by
  rw [i16_eq_self] <;> push_cast <;> omega

theorem lanes_pair (w0 w1 : ℤ) : lanes16 (set1bytes32 (ofLanes16 [w0, w1])) =
    [i16 w0, i16 w1, i16 w0, i16 w1, i16 w0, i16 w1, i16 w0, i16 w1] := by
  show lanes16 (ofLanes16 [w0, w1, w0, w1, w0, w1, w0, w1]) = _
  rw [lanes16_ofLanes16]; rfl

theorem lanes_set16 (w : ℤ) : lanes16 (set1epi16 w) =
    [i16 w, i16 w, i16 w, i16 w, i16 w, i16 w, i16 w, i16 w] := by
  unfold set1epi16
  rw [lanes16_ofLanes16]; rfl

theorem lanes_set32 (w : ℤ) : ∃ h, lanes16 (set1epi32 w) =
    [i16 w, h, i16 w, h, i16 w, h, i16 w, h] := by
  refine ⟨i16 (((w / 65536 % 256).toNat : ℤ) + 256 * ((w / 16777216 % 256).toNat : ℤ)), ?_⟩
  unfold set1epi32 set1bytes32 bytes32
  simp only [List.cons_append, List.nil_append, lanes16_cons, lanes16_nil, i16_bytes]

theorem unpack_zero {a b c d : ℕ} (ha : a < 256) (hb : b < 256) (hc : c < 256) (hd : d < 256)
    (a' b' c' d' : ℕ) (ha' : a' < 256) (hb' : b' < 256) (hc' : c' < 256) (hd' : d' < 256) :
    lanes16 [a, 0, a', 0, b, 0, b', 0, c, 0, c', 0, d, 0, d', 0] =
      [(a : ℤ), (a' : ℤ), (b : ℤ), (b' : ℤ), (c : ℤ), (c' : ℤ), (d : ℤ), (d' : ℤ)] := by
  simp only [lanes16_cons, lanes16_nil, i16_byte, *]

theorem madd_add (s : List ℤ) (a a' b b' c c' d d' x y z w : ℤ) (v0 v1 v2 v3 v4 v5 v6 v7 : ℤ)
    (hs : s = [x, y, z, w]) (r0 r1 : Reg) (h0 : lanes16 r0 = [a, a', b, b', c, c', d, d'])
    (h1 : lanes16 r1 = [v0, v1, v2, v3, v4, v5, v6, v7]) :
    add32 (ofLanes32 s) (madd16 r0 r1) =
      ofLanes32 [i32 (x + (a * v0 + a' * v1)), i32 (y + (b * v2 + b' * v3)),
        i32 (z + (c * v4 + c' * v5)), i32 (w + (d * v6 + d' * v7))] := by
  subst hs
  unfold add32 madd16
  rw [h0, h1, lanes32_ofLanes32, lanes32_ofLanes32]
  simp only [maddLanes, List.map_cons, List.map_nil, List.zipWith_cons_cons, List.zipWith_nil_left,
    i32_i32, i32_add_i32, i32_i32_add]

/-- Two rows at once. -/
theorem dotRows_of (f : ℕ → ℤ) {p q : ℕ → ℕ} (hp : ∀ c, p c < 256) (hq : ∀ c, q c < 256)
    (w0 w1 : ℤ) : dotRows (Quad.of f) (bytesOf p) (bytesOf q) (set1bytes32 (ofLanes16 [w0, w1])) =
      Quad.of fun c => i32 (f c + ((p c : ℤ) * i16 w0 + (q c : ℤ) * i16 w1)) := by
  have hl := lanes_pair w0 w1
  unfold dotRows Quad.of
  simp only [Quad.mk.injEq]
  refine ⟨madd_add _ _ _ _ _ _ _ _ _ _ _ _ _ _ _ _ _ _ _ _ _ rfl _ _ ?_ hl,
    madd_add _ _ _ _ _ _ _ _ _ _ _ _ _ _ _ _ _ _ _ _ _ rfl _ _ ?_ hl,
    madd_add _ _ _ _ _ _ _ _ _ _ _ _ _ _ _ _ _ _ _ _ _ rfl _ _ ?_ hl,
    madd_add _ _ _ _ _ _ _ _ _ _ _ _ _ _ _ _ _ _ _ _ _ rfl _ _ ?_ hl⟩
  · exact unpack_zero (hp 0) (hp 1) (hp 2) (hp 3) _ _ _ _ (hq 0) (hq 1) (hq 2) (hq 3)
  · exact unpack_zero (hp 4) (hp 5) (hp 6) (hp 7) _ _ _ _ (hq 4) (hq 5) (hq 6) (hq 7)
  · exact unpack_zero (hp 8) (hp 9) (hp 10) (hp 11) _ _ _ _ (hq 8) (hq 9) (hq 10) (hq 11)
  · exact unpack_zero (hp 12) (hp 13) (hp 14) (hp 15) _ _ _ _ (hq 12) (hq 13) (hq 14) (hq 15)

/-- One row; `wr` is the broadcast weight, as `set1_epi16` or `set1_epi32`. -/
theorem dotProd_of (f : ℕ → ℤ) {p : ℕ → ℕ} (hp : ∀ c, p c < 256) (w h : ℤ) (wr : Reg)
    (hw : lanes16 wr = [i16 w, h, i16 w, h, i16 w, h, i16 w, h]) :
    dotProd (Quad.of f) (bytesOf p) wr = Quad.of fun c => i32 (f c + (p c : ℤ) * i16 w) := by
  have key : ∀ a b c d : ℕ, a < 256 → b < 256 → c < 256 → d < 256 → ∀ x y z t : ℤ, ∀ r : Reg,
      r = [a, 0, 0, 0, b, 0, 0, 0, c, 0, 0, 0, d, 0, 0, 0] →
      add32 (ofLanes32 [x, y, z, t]) (madd16 r wr) = ofLanes32 [i32 (x + (a : ℤ) * i16 w),
        i32 (y + (b : ℤ) * i16 w), i32 (z + (c : ℤ) * i16 w), i32 (t + (d : ℤ) * i16 w)] := by
    intro a b c d ha hb hc hd x y z t r hr
    rw [madd_add _ _ _ _ _ _ _ _ _ _ _ _ _ _ _ _ _ _ _ _ _ rfl _ _
      (by rw [hr]; exact unpack_zero ha hb hc hd 0 0 0 0 (by omega) (by omega) (by omega) (by omega)) hw]
    simp only [Nat.cast_zero, zero_mul, add_zero]
  unfold dotProd Quad.of
  simp only [Quad.mk.injEq]
  exact ⟨key _ _ _ _ (hp 0) (hp 1) (hp 2) (hp 3) _ _ _ _ _ rfl,
    key _ _ _ _ (hp 4) (hp 5) (hp 6) (hp 7) _ _ _ _ _ rfl,
    key _ _ _ _ (hp 8) (hp 9) (hp 10) (hp 11) _ _ _ _ _ rfl,
    key _ _ _ _ (hp 12) (hp 13) (hp 14) (hp 15) _ _ _ _ _ rfl⟩

/-- What `packs_epi32` and `packus_epi16` do to one accumulator. -/
theorem pack_lane (v : ℤ) : (max 0 (min (i16 (max (-32768) (min v 32767))) 255)).toNat =
    Spec.clamp 255 v := by
  rw [i16_eq_self (by omega) (by omega)]
  unfold Spec.clamp
  congr 1
  omega

theorem sat_eq (v : ℤ) : saturateNarrow 255 v = Spec.clamp 255 (v >>> 15) := by
  unfold saturateNarrow Spec.clamp
  congr 1
  omega

theorem shift_range {v : ℤ} (h1 : -2147483648 ≤ v) (h2 : v < 2147483648) :
    -65536 ≤ v >>> 15 ∧ v >>> 15 ≤ 65535 := by
  rw [Int.shiftRight_eq_div_pow]
  norm_num
  omega

theorem Quad.packRaw_of (f : ℕ → ℤ) : (Quad.of f).packRaw =
    (List.range 16).map fun c => Spec.clamp 255 (i32 (f c)) := by
  unfold Quad.packRaw Quad.of packus16 packs32
  simp only [lanes32_ofLanes32, lanes16_ofLanes16, List.map_cons, List.map_nil, List.cons_append,
    List.nil_append, pack_lane]
  rfl

theorem Quad.pack_of (f : ℕ → ℤ) : (Quad.of f).pack =
    (List.range 16).map fun c => saturateNarrow 255 (i32 (f c)) := by
  have key : ∀ v : ℤ, i32 (i32 v >>> 15) = i32 v >>> 15 := fun v => by
    have := shift_range (i32_range v).1 (i32_range v).2
    exact i32_eq_self (by omega) (by omega)
  unfold Quad.pack Quad.of packus16 packs32 srai32 PRECISION
  simp only [lanes32_ofLanes32, lanes16_ofLanes16, List.map_cons, List.map_nil, List.cons_append,
    List.nil_append, pack_lane, key, sat_eq]
  rfl

/-! Loads -/

theorem loadBytes_eq {src : List ℕ} {off n : ℕ} (h : off + n ≤ src.length) :
    loadBytes src off n = some ((List.range n).map fun c => src.getD (off + c) 0 % 256) := by
  unfold loadBytes
  rw [slice?_eq_some (by omega) h, Nat.add_sub_cancel_left, slice_eq_map_range 0 h]
  simp [Function.comp_def]

theorem load128_eq {src : List ℕ} {off : ℕ} (h : off + 16 ≤ src.length) :
    load128 src off = some (bytesOf fun c => src.getD (off + c) 0 % 256) := loadBytes_eq h

theorem load64_eq {src : List ℕ} {off : ℕ} (h : off + 8 ≤ src.length) :
    load64 src off = some ((List.range 8).map (fun c => src.getD (off + c) 0 % 256) ++
      List.replicate 8 0) := by
  unfold load64
  rw [loadBytes_eq h]; rfl

theorem load32_eq {src : List ℕ} {off : ℕ} (h : off + 4 ≤ src.length) :
    load32 src off = some ((List.range 4).map (fun c => src.getD (off + c) 0 % 256) ++
      List.replicate 12 0) := by
  unfold load32
  rw [loadBytes_eq h]; rfl

theorem load8_eq {src : List ℕ} {off : ℕ} (h : off + 1 ≤ src.length) :
    load8 src off = some ((src.getD off 0 % 256) :: List.replicate 15 0) := by
  unfold load8
  rw [loadBytes_eq h]; rfl

theorem weightBytes_two {w : List ℤ} {j : ℕ} (h : j + 2 ≤ w.length) :
    weightBytes w j 2 = some (ofLanes16 [w.getD j 0, w.getD (j + 1) 0]) := by
  unfold weightBytes
  rw [slice?_eq_some (by omega) h, Nat.add_sub_cancel_left, slice_eq_map_range 0 h]; rfl

/-! Loops -/

/-- A loop whose body maintains `state = inv jx`. -/
theorem whileAcc_spec {σ : Type} {margin step size : ℕ} {body : ℕ → σ → Option σ} {inv : ℕ → σ}
    (hstep : 1 ≤ step) (hm : step ≤ margin + 1)
    (hb : ∀ jx, jx + margin < size → body jx (inv jx) = some (inv (jx + step))) :
    ∀ fuel jx, jx ≤ size → size ≤ fuel + jx →
      ∃ jx', whileAcc margin step size body fuel jx (inv jx) = some (jx', inv jx') ∧
        jx ≤ jx' ∧ jx' ≤ size ∧ size ≤ jx' + margin := by
  intro fuel
  induction fuel with
  | zero => intro jx h1 h2; exact ⟨jx, rfl, le_refl _, h1, by omega⟩
  | succ fuel ih =>
    intro jx h1 h2
    unfold whileAcc
    by_cases h : jx + margin < size
    · rw [if_pos h, hb jx h]
      simp only [Option.bind_eq_bind, Option.bind_some]
      obtain ⟨jx', e1, e2, e3, e4⟩ := ih (jx + step) (by omega) (by omega)
      exact ⟨jx', e1, by omega, e3, e4⟩
    · rw [if_neg h]
      exact ⟨jx, rfl, le_refl _, h1, by omega⟩

theorem forRange_spec {σ : Type} {a b : ℕ} {body : ℕ → σ → Option σ} {inv : ℕ → σ} (hab : a ≤ b)
    (hb : ∀ j, a ≤ j → j < b → body j (inv j) = some (inv (j + 1))) :
    forRange a b body (inv a) = some (inv b) := by
  unfold forRange
  obtain ⟨n, rfl⟩ : ∃ n, b = a + n := ⟨b - a, by omega⟩
  rw [Nat.add_sub_cancel_left]
  clear hab
  induction n generalizing a with
  | zero => rfl
  | succ n ih =>
    rw [List.range'_succ, List.foldlM_cons, hb a (le_refl _) (by omega)]
    simp only [Option.bind_eq_bind, Option.bind_some]
    rw [ih (a := a + 1) (fun j h1 h2 => hb j (by omega) (by omega))]
    congr 2
    omega

end PicScale
