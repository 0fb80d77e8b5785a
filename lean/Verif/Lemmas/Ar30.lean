import Verif.SpecAr30
import Verif.Lemmas.FixedPass

namespace PicScale

open Finset

/-! ### Bits -/

theorem or_eq_add {a i b : ℕ} (h : b < 2 ^ i) : (a <<< i) ||| b = a * 2 ^ i + b := by
  rw [← Nat.shiftLeft_add_eq_or_of_lt h, Nat.shiftLeft_eq]

theorem and_ff (v : ℕ) : v &&& 0xff = v % 256 := Nat.and_two_pow_sub_one_eq_mod v 8
theorem and_3ff (v : ℕ) : v &&& 0x3ff = v % 1024 := Nat.and_two_pow_sub_one_eq_mod v 10

theorem four_or {a b c d : ℕ} (ha : a < 256) (hb : b < 256) (hc : c < 256) :
    a ||| (b <<< 8) ||| (c <<< 16) ||| (d <<< 24) = d * 2 ^ 24 + c * 2 ^ 16 + b * 2 ^ 8 + a := by
  have h1 : a ||| (b <<< 8) = b * 2 ^ 8 + a := by
    rw [Nat.or_comm]; exact or_eq_add (by omega)
  have h2 : (b * 2 ^ 8 + a) ||| (c <<< 16) = c * 2 ^ 16 + (b * 2 ^ 8 + a) := by
    rw [Nat.or_comm]; exact or_eq_add (by omega)
  have h3 : (c * 2 ^ 16 + (b * 2 ^ 8 + a)) ||| (d <<< 24) = d * 2 ^ 24 + (c * 2 ^ 16 + (b * 2 ^ 8 + a)) := by
    rw [Nat.or_comm]; exact or_eq_add (by omega)
  rw [h1, h2, h3]; omega

theorem swapBytes_eq (v : ℕ) : swapBytes v =
    v % 256 * 2 ^ 24 + v / 2 ^ 8 % 256 * 2 ^ 16 + v / 2 ^ 16 % 256 * 2 ^ 8 + v / 2 ^ 24 % 256 := by
  unfold swapBytes
  simp only [and_ff, Nat.shiftRight_eq_div_pow]
  rw [Nat.or_assoc, Nat.or_assoc]
  have h1 : ((v / 2 ^ 16 % 256) <<< 8) ||| (v / 2 ^ 24 % 256) = v / 2 ^ 16 % 256 * 2 ^ 8 + v / 2 ^ 24 % 256 :=
    or_eq_add (Nat.mod_lt _ (by norm_num))
  have h2 : ((v / 2 ^ 8 % 256) <<< 16) ||| (v / 2 ^ 16 % 256 * 2 ^ 8 + v / 2 ^ 24 % 256) =
      v / 2 ^ 8 % 256 * 2 ^ 16 + (v / 2 ^ 16 % 256 * 2 ^ 8 + v / 2 ^ 24 % 256) :=
    or_eq_add (by omega)
  have h3 : ((v % 256) <<< 24) ||| (v / 2 ^ 8 % 256 * 2 ^ 16 + (v / 2 ^ 16 % 256 * 2 ^ 8 + v / 2 ^ 24 % 256)) =
      v % 256 * 2 ^ 24 + (v / 2 ^ 8 % 256 * 2 ^ 16 + (v / 2 ^ 16 % 256 * 2 ^ 8 + v / 2 ^ 24 % 256)) :=
    or_eq_add (by omega)
  rw [h1, h2, h3]; omega

/-- The word in memory order, then possibly swapped, is the word of the format. -/
theorem read_word (F : Fmt30) {b0 b1 b2 b3 : ℕ} (h0 : b0 < 256) (h1 : b1 < 256) (h2 : b2 < 256) (h3 : b3 < 256) :
    (match F.order with
      | .host => fromNeBytes F.endian b0 b1 b2 b3
      | .network => toBe F.endian (fromNeBytes F.endian b0 b1 b2 b3)) =
    Spec.word30 F.bigFirst (fun i => if i = 0 then b0 else if i = 1 then b1 else if i = 2 then b2 else b3) := by
  obtain ⟨e, t, o⟩ := F
  cases e <;> cases o <;>
    simp only [fromNeBytes, toBe, Fmt30.bigFirst, Spec.word30, swapBytes_eq, four_or h0 h1 h2, four_or h3 h2 h1] <;>
    simp <;> omega

theorem pack_value_ar30 {r g b : ℕ} (hr : r < 1024) (hg : g < 1024) (hb : b < 1024) :
    ((3 <<< 30) ||| ((b <<< 20) % 2 ^ 32)) ||| (((g <<< 10) % 2 ^ 32) ||| r) =
      3 * 2 ^ 30 + b * 2 ^ 20 + g * 2 ^ 10 + r := by
  have e1 : (b <<< 20) % 2 ^ 32 = b <<< 20 := Nat.mod_eq_of_lt (by rw [Nat.shiftLeft_eq]; omega)
  have e2 : (g <<< 10) % 2 ^ 32 = g <<< 10 := Nat.mod_eq_of_lt (by rw [Nat.shiftLeft_eq]; omega)
  rw [e1, e2, Nat.or_assoc, or_eq_add (show r < 2 ^ 10 by omega),
    or_eq_add (show g * 2 ^ 10 + r < 2 ^ 20 by omega), or_eq_add (show b * 2 ^ 20 + (g * 2 ^ 10 + r) < 2 ^ 30 by omega)]
  omega

theorem pack_value_ra30 {r g b : ℕ} (hr : r < 1024) (hg : g < 1024) (hb : b < 1024) :
    (((r <<< 22) % 2 ^ 32) ||| ((g <<< 12) % 2 ^ 32)) ||| (((b <<< 2) % 2 ^ 32) ||| 3) =
      r * 2 ^ 22 + g * 2 ^ 12 + b * 2 ^ 2 + 3 := by
  have e1 : (r <<< 22) % 2 ^ 32 = r <<< 22 := Nat.mod_eq_of_lt (by rw [Nat.shiftLeft_eq]; omega)
  have e2 : (g <<< 12) % 2 ^ 32 = g <<< 12 := Nat.mod_eq_of_lt (by rw [Nat.shiftLeft_eq]; omega)
  have e3 : (b <<< 2) % 2 ^ 32 = b <<< 2 := Nat.mod_eq_of_lt (by rw [Nat.shiftLeft_eq]; omega)
  rw [e1, e2, e3, Nat.or_assoc, or_eq_add (show 3 < 2 ^ 2 by omega),
    or_eq_add (show b * 2 ^ 2 + 3 < 2 ^ 12 by omega), or_eq_add (show g * 2 ^ 12 + (b * 2 ^ 2 + 3) < 2 ^ 22 by omega)]
  omega

/-- The number a packed pixel denotes. -/
def packed30 (t : Rgb30) (r g b : ℕ) : ℕ :=
  match t with
  | .ar30 => 3 * 2 ^ 30 + b * 2 ^ 20 + g * 2 ^ 10 + r
  | .ra30 => r * 2 ^ 22 + g * 2 ^ 12 + b * 2 ^ 2 + 3

theorem pack30_eq (F : Fmt30) {r g b : ℕ} (hr : r < 1024) (hg : g < 1024) (hb : b < 1024) :
    pack30 F.endian F.ty F.order r g b = match F.order with
      | .host => packed30 F.ty r g b
      | .network => toBe F.endian (packed30 F.ty r g b) := by
  unfold pack30 packed30
  cases F.ty <;> cases F.order <;> simp only [pack_value_ar30 hr hg hb, pack_value_ra30 hr hg hb]

theorem packed30_lt (t : Rgb30) {r g b : ℕ} (hr : r < 1024) (hg : g < 1024) (hb : b < 1024) :
    packed30 t r g b < 2 ^ 32 := by
  cases t <;> simp only [packed30] <;> omega

theorem comp30_packed (t : Rgb30) {r g b : ℕ} (hr : r < 1024) (hg : g < 1024) (hb : b < 1024) :
    Spec.comp30 t 0 (packed30 t r g b) = r ∧ Spec.comp30 t 1 (packed30 t r g b) = g ∧
      Spec.comp30 t 2 (packed30 t r g b) = b ∧ Spec.comp30 t 3 (packed30 t r g b) = 3 := by
  cases t <;> simp [Spec.comp30, Spec.shift30, packed30] <;> omega

theorem toNeBytes_eq (e : Endian) (v : ℕ) : toNeBytes e v =
    if e = .little then [v % 256, v / 2 ^ 8 % 256, v / 2 ^ 16 % 256, v / 2 ^ 24 % 256]
    else [v / 2 ^ 24 % 256, v / 2 ^ 16 % 256, v / 2 ^ 8 % 256, v % 256] := by
  cases e <;> simp [toNeBytes, and_ff, Nat.shiftRight_eq_div_pow]

theorem toNeBytes_length (e : Endian) (v : ℕ) : (toNeBytes e v).length = 4 := by
  cases e <;> rfl

theorem toNeBytes_lt (e : Endian) (v i : ℕ) : (toNeBytes e v).getD i 0 < 256 := by
  refine lt_of_le_of_lt (getD_le_of_forall (M := 255) ?_ i) (by norm_num)
  intro x hx
  rw [toNeBytes_eq] at hx
  split at hx <;> simp at hx <;> omega

theorem digits_of {a b c d : ℕ} (ha : a < 256) (hb : b < 256) (hc : c < 256) (hd : d < 256) :
    (a * 2 ^ 24 + b * 2 ^ 16 + c * 2 ^ 8 + d) % 256 = d ∧ (a * 2 ^ 24 + b * 2 ^ 16 + c * 2 ^ 8 + d) / 2 ^ 8 % 256 = c ∧
    (a * 2 ^ 24 + b * 2 ^ 16 + c * 2 ^ 8 + d) / 2 ^ 16 % 256 = b ∧
    (a * 2 ^ 24 + b * 2 ^ 16 + c * 2 ^ 8 + d) / 2 ^ 24 % 256 = a := by
  refine ⟨?_, ?_, ?_, ?_⟩ <;> omega

theorem exists_digits {v : ℕ} (h : v < 2 ^ 32) : ∃ a b c d : ℕ, a < 256 ∧ b < 256 ∧ c < 256 ∧ d < 256 ∧
    v = a * 2 ^ 24 + b * 2 ^ 16 + c * 2 ^ 8 + d :=
  ⟨v / 2 ^ 24 % 256, v / 2 ^ 16 % 256, v / 2 ^ 8 % 256, v % 256, by omega, by omega, by omega, by omega, by omega⟩

/-- The bytes the code stores for a pixel denote the packed number. -/
theorem stored_word (F : Fmt30) {r g b : ℕ} (hr : r < 1024) (hg : g < 1024) (hb : b < 1024) :
    Spec.word30 F.bigFirst (fun i => (toNeBytes F.endian (pack30 F.endian F.ty F.order r g b)).getD i 0) =
      packed30 F.ty r g b := by
  rw [pack30_eq F hr hg hb, toNeBytes_eq]
  have hlt := packed30_lt F.ty hr hg hb
  generalize packed30 F.ty r g b = v at hlt
  obtain ⟨a, b, c, d, ha, hb, hc, hd, rfl⟩ := exists_digits hlt
  obtain ⟨d0, d1, d2, d3⟩ := digits_of ha hb hc hd
  obtain ⟨s0, s1, s2, s3⟩ := digits_of hd hc hb ha
  obtain ⟨e, t, o⟩ := F
  cases e <;> cases o <;>
    simp only [toBe, Fmt30.bigFirst, Spec.word30, swapBytes_eq, d0, d1, d2, d3, s0, s1, s2, s3] <;> simp

/-! ### Loads and stores -/

/-- Component `c` as the code decodes it from the bytes `b`. -/
def raw30 (F : Fmt30) (b : ℕ → ℕ) (c : ℕ) : ℕ :=
  (unpack30 F.endian F.ty F.order (fromNeBytes F.endian (b 0) (b 1) (b 2) (b 3))).getD c 0

theorem unpack30_length (e : Endian) (t : Rgb30) (o : Ar30Order) (v : ℕ) : (unpack30 e t o v).length = 4 := by
  cases t <;> rfl

theorem raw30_eq (F : Fmt30) {b : ℕ → ℕ} (hb : ∀ i, b i < 256) {c : ℕ} (hc : c < 3) :
    raw30 F b c = Spec.comp30 F.ty c (Spec.word30 F.bigFirst b) := by
  have h := read_word F (hb 0) (hb 1) (hb 2) (hb 3)
  have hw : Spec.word30 F.bigFirst (fun i => if i = 0 then b 0 else if i = 1 then b 1 else if i = 2 then b 2 else b 3) =
      Spec.word30 F.bigFirst b := by simp [Spec.word30]
  rw [hw] at h
  rw [← h]
  unfold raw30 unpack30
  have h3 : c = 0 ∨ c = 1 ∨ c = 2 := by omega
  obtain ⟨e, t, o⟩ := F
  cases o <;> cases t <;> rcases h3 with rfl | rfl | rfl <;>
    simp [Spec.comp30, Spec.shift30, and_3ff, Nat.shiftRight_eq_div_pow]

theorem raw30_alpha (F : Fmt30) (b : ℕ → ℕ) : raw30 F b 3 = 3 := by
  unfold raw30 unpack30
  cases F.ty <;> rfl

theorem raw30_le (F : Fmt30) (b : ℕ → ℕ) (c : ℕ) : raw30 F b c ≤ 1023 := by
  unfold raw30
  refine getD_le_of_forall ?_ c
  intro v hv
  unfold unpack30 at hv
  cases hF : F.ty <;> rw [hF] at hv <;> simp [and_3ff] at hv <;> omega

theorem raw30_congr (F : Fmt30) {b b' : ℕ → ℕ} (h : ∀ i, i < 4 → b i = b' i) (c : ℕ) : raw30 F b c = raw30 F b' c := by
  unfold raw30
  rw [h 0 (by omega), h 1 (by omega), h 2 (by omega), h 3 (by omega)]

theorem load30_eq (F : Fmt30) {s : List ℕ} {off : ℕ} (h : off + 4 ≤ s.length) :
    load30 F s off = some ((List.range 4).map fun c => ((raw30 F (fun i => s.getD (off + i) 0) c : ℕ) : ℤ)) := by
  unfold load30
  rw [getElem?_eq_some_getD 0 (show off < s.length by omega), getElem?_eq_some_getD 0 (show off + 1 < s.length by omega),
    getElem?_eq_some_getD 0 (show off + 2 < s.length by omega), getElem?_eq_some_getD 0 (show off + 3 < s.length by omega)]
  simp only [Option.bind_eq_bind, Option.bind_some, Option.some.injEq]
  apply List.ext_getElem?
  intro c
  by_cases hc : c < 4
  · rw [List.getElem?_map, List.getElem?_map, List.getElem?_range hc,
      getElem?_eq_some_getD 0 (by rw [unpack30_length]; exact hc)]
    simp only [Option.map_some]
    rfl
  · rw [List.getElem?_eq_none (by simp [unpack30_length]; omega), List.getElem?_eq_none (by simp; omega)]

theorem load30_chunk (F : Fmt30) {s : List ℕ} {off : ℕ} (h : off + 4 ≤ s.length) :
    load30 F ((s.drop off).take 4) 0 =
      some ((List.range 4).map fun c => ((raw30 F (fun i => s.getD (off + i) 0) c : ℕ) : ℤ)) := by
  rw [load30_eq F (by simp; omega)]
  congr 1
  apply List.map_congr_left
  intro c _
  congr 1
  apply raw30_congr
  intro i hi
  rw [Nat.zero_add, List.getD_eq_getElem?_getD, List.getElem?_take, if_pos hi, List.getElem?_drop,
    List.getD_eq_getElem?_getD]

/-- Byte `i` of the pixel whose accumulators are `S 0, S 1, S 2`. -/
def enc30 (F : Fmt30) (S : ℕ → ℤ) (i : ℕ) : ℕ :=
  (toNeBytes F.endian (pack30 F.endian F.ty F.order (saturate30 1023 (S 0)) (saturate30 1023 (S 1))
    (saturate30 1023 (S 2)))).getD i 0

theorem store30_eq (F : Fmt30) (S : ℕ → ℤ) : store30 F ((List.range 4).map S) = (List.range 4).map (enc30 F S) := by
  apply List.ext_getElem?
  intro c
  unfold store30
  by_cases hc : c < 4
  · rw [List.getElem?_map, List.getElem?_range hc, getElem?_eq_some_getD 0 (by rw [toNeBytes_length]; exact hc)]
    simp [enc30]
  · rw [List.getElem?_eq_none (by rw [toNeBytes_length]; omega), List.getElem?_eq_none (by simp; omega)]

theorem saturate30_lt (v : ℤ) : saturate30 1023 v < 1024 := by unfold saturate30; omega

theorem saturate30_round (v : ℤ) : saturate30 1023 (16384 + v) = Spec.clamp 1023 (Spec.fixRound v) := by
  rw [← saturateNarrow_round]
  unfold saturate30 saturateNarrow
  omega

/-- The components of a stored pixel are the saturated accumulators; alpha is 3. -/
theorem enc30_comp (F : Fmt30) (S : ℕ → ℤ) :
    (∀ c, c < 3 → Spec.comp30 F.ty c (Spec.word30 F.bigFirst (enc30 F S)) = saturate30 1023 (S c)) ∧
      Spec.comp30 F.ty 3 (Spec.word30 F.bigFirst (enc30 F S)) = 3 := by
  have h := stored_word F (saturate30_lt (S 0)) (saturate30_lt (S 1)) (saturate30_lt (S 2))
  have hc := comp30_packed F.ty (saturate30_lt (S 0)) (saturate30_lt (S 1)) (saturate30_lt (S 2))
  rw [show enc30 F S = fun i => (toNeBytes F.endian (pack30 F.endian F.ty F.order (saturate30 1023 (S 0))
    (saturate30 1023 (S 1)) (saturate30 1023 (S 2)))).getD i 0 from rfl, h]
  refine ⟨fun c hc3 => ?_, hc.2.2.2⟩
  have : c = 0 ∨ c = 1 ∨ c = 2 := by omega
  rcases this with rfl | rfl | rfl
  · exact hc.1
  · exact hc.2.1
  · exact hc.2.2.1

theorem enc30_lt (F : Fmt30) (S : ℕ → ℤ) (i : ℕ) : enc30 F S i < 256 := toNeBytes_lt _ _ _

theorem unpack_pack (F : Fmt30) {r g b : ℕ} (hr : r < 1024) (hg : g < 1024) (hb : b < 1024) :
    unpack30 F.endian F.ty F.order (pack30 F.endian F.ty F.order r g b) = [r, g, b, 3] := by
  rw [pack30_eq F hr hg hb]
  have hlt := packed30_lt F.ty hr hg hb
  have hsw : ∀ v, v < 2 ^ 32 → swapBytes (swapBytes v) = v := by
    intro v hv
    obtain ⟨a, b, c, d, ha, hb, hc, hd, rfl⟩ := exists_digits hv
    obtain ⟨d0, d1, d2, d3⟩ := digits_of ha hb hc hd
    obtain ⟨s0, s1, s2, s3⟩ := digits_of hd hc hb ha
    rw [swapBytes_eq (a * 2 ^ 24 + b * 2 ^ 16 + c * 2 ^ 8 + d), d0, d1, d2, d3, swapBytes_eq, s0, s1, s2, s3]
  have hfin : ∀ (e : Endian) (t : Rgb30), unpack30 e t .host (packed30 t r g b) = [r, g, b, 3] := by
    intro e t
    unfold unpack30
    cases t <;> simp only [packed30, and_3ff, Nat.shiftRight_eq_div_pow, List.cons.injEq, and_true] <;>
      refine ⟨?_, ?_, ?_⟩ <;> omega
  have hnet : ∀ v, unpack30 F.endian F.ty .network v = unpack30 F.endian F.ty .host (toBe F.endian v) := fun _ => rfl
  cases F.order
  · exact hfin _ _
  · rw [hnet]
    have : toBe F.endian (toBe F.endian (packed30 F.ty r g b)) = packed30 F.ty r g b := by
      cases F.endian <;> simp only [toBe, hsw _ hlt]
    simp only [this, hfin]

theorem unpack_bytes (F : Fmt30) {b0 b1 b2 b3 : ℕ} (h0 : b0 < 256) (h1 : b1 < 256) (h2 : b2 < 256) (h3 : b3 < 256) :
    unpack30 F.endian F.ty F.order (fromNeBytes F.endian b0 b1 b2 b3) =
      [Spec.comp30 F.ty 0 (Spec.word30 F.bigFirst (fun i => [b0, b1, b2, b3].getD i 0)),
       Spec.comp30 F.ty 1 (Spec.word30 F.bigFirst (fun i => [b0, b1, b2, b3].getD i 0)),
       Spec.comp30 F.ty 2 (Spec.word30 F.bigFirst (fun i => [b0, b1, b2, b3].getD i 0)), 3] := by
  have hb : ∀ i, [b0, b1, b2, b3].getD i 0 < 256 := fun i =>
    lt_of_le_of_lt (getD_le_of_forall (M := 255) (by simp; omega) i) (by norm_num)
  have e := fun c (hc : c < 3) => raw30_eq F hb hc
  unfold raw30 at e
  simp only [List.getD_cons_zero, List.getD_cons_succ] at e
  rw [← e 0 (by omega), ← e 1 (by omega), ← e 2 (by omega)]
  unfold unpack30
  cases F.ty <;> rfl

theorem word_of_comps (t : Rgb30) {w : ℕ} (hw : w < 2 ^ 32) (ha : Spec.comp30 t 3 w = 3) :
    packed30 t (Spec.comp30 t 0 w) (Spec.comp30 t 1 w) (Spec.comp30 t 2 w) = w := by
  cases t <;> simp [Spec.comp30, Spec.shift30, packed30] at * <;> omega

theorem repack_bytes (F : Fmt30) {b0 b1 b2 b3 : ℕ} (h0 : b0 < 256) (h1 : b1 < 256) (h2 : b2 < 256) (h3 : b3 < 256)
    (ha : Spec.comp30 F.ty 3 (Spec.word30 F.bigFirst (fun i => [b0, b1, b2, b3].getD i 0)) = 3) :
    toNeBytes F.endian (pack30 F.endian F.ty F.order
      (Spec.comp30 F.ty 0 (Spec.word30 F.bigFirst (fun i => [b0, b1, b2, b3].getD i 0)))
      (Spec.comp30 F.ty 1 (Spec.word30 F.bigFirst (fun i => [b0, b1, b2, b3].getD i 0)))
      (Spec.comp30 F.ty 2 (Spec.word30 F.bigFirst (fun i => [b0, b1, b2, b3].getD i 0)))) = [b0, b1, b2, b3] := by
  have hlt : Spec.word30 F.bigFirst (fun i => [b0, b1, b2, b3].getD i 0) < 2 ^ 32 := by
    unfold Spec.word30; simp; split_ifs <;> omega
  have hc : ∀ c w, c < 3 → Spec.comp30 F.ty c w < 1024 := by
    intro c w hc
    unfold Spec.comp30
    rw [if_neg (by omega)]
    exact Nat.mod_lt _ (by norm_num)
  have hp := word_of_comps F.ty hlt ha
  have hs := stored_word F (hc 0 (Spec.word30 F.bigFirst (fun i => [b0, b1, b2, b3].getD i 0)) (by omega))
    (hc 1 (Spec.word30 F.bigFirst (fun i => [b0, b1, b2, b3].getD i 0)) (by omega))
    (hc 2 (Spec.word30 F.bigFirst (fun i => [b0, b1, b2, b3].getD i 0)) (by omega))
  rw [hp] at hs
  generalize pack30 F.endian F.ty F.order _ _ _ = v at hs ⊢
  have hl := toNeBytes_length F.endian v
  have hb := toNeBytes_lt F.endian v
  match hm : toNeBytes F.endian v, hl with
  | [a0, a1, a2, a3], _ =>
    rw [hm] at hs hb
    have g0 := hb 0
    have g1 := hb 1
    have g2 := hb 2
    have g3 := hb 3
    simp only [List.getD_cons_zero, List.getD_cons_succ] at g0 g1 g2 g3
    unfold Spec.word30 at hs
    simp only [List.getD_cons_zero, List.getD_cons_succ] at hs
    simp only [List.cons.injEq, and_true]
    split_ifs at hs <;> refine ⟨?_, ?_, ?_, ?_⟩ <;> omega

end PicScale
