import Verif.Lemmas.X86Ar30

/-! Storing packed 10-bit pixels with SSE4.1. -/

namespace PicScale

open Finset Spec

/-- Byte `k` of a stored pixel with components `q 0, q 1, q 2`. -/
def pxByte (t : Rgb30) (o : Ar30Order) (q : ℕ → ℕ) (k : ℕ) : ℕ :=
  (toNeBytes .little (pack30 .little t o (q 0) (q 1) (q 2))).getD k 0

theorem toNe_list (v : ℕ) : toNeBytes .little v = [v % 2 ^ 8, v / 2 ^ 8 % 2 ^ 8, v / 2 ^ 16 % 2 ^ 8, v / 2 ^ 24 % 2 ^ 8] := by
  rw [toNeBytes_eq, if_pos rfl]
  norm_num

theorem pxByte_list (t : Rgb30) (o : Ar30Order) (q : ℕ → ℕ) :
    toNeBytes .little (pack30 .little t o (q 0) (q 1) (q 2)) = (List.range 4).map (pxByte t o q) := rfl

theorem pxByte_lt (t : Rgb30) (o : Ar30Order) (q : ℕ → ℕ) (k : ℕ) : pxByte t o q k < 256 := toNeBytes_lt _ _ _

theorem swap_congr {a b : ℕ} (h : a % 4294967296 = b % 4294967296) : swapBytes a = swapBytes b := by
  rw [swapBytes_eq, swapBytes_eq]
  omega

theorem ord_congr (o : Ar30Order) {a b : ℕ} (h : a % 4294967296 = b % 4294967296) :
    ord30 o a % 4294967296 = ord30 o b % 4294967296 := by
  cases o
  · exact h
  · exact congrArg (· % 4294967296) (swap_congr h)

/-- The disjunction in `_mm_zip_4_ar30`. -/
def orWord (t : Rgb30) (r g b : ℕ) : ℕ :=
  match t with
  | .ar30 => ((3 * 2 ^ 30 ||| b * 2 ^ 20) ||| g * 2 ^ 10) ||| r
  | .ra30 => ((3 ||| r * 2 ^ 22) ||| g * 2 ^ 12) ||| b * 2 ^ 2

theorem orWord_pack (t : Rgb30) (o : Ar30Order) {r : ℕ} (g b : ℕ) (hr : r < 65536) :
    ord30 o (orWord t r g b) % 4294967296 = pack30 .little t o r g b % 4294967296 := by
  have e : pack30 .little t o r g b = ord30 o (pack30 .little t .host r g b) := by cases o <;> rfl
  rw [e]
  apply ord_congr
  have p32 : (4294967296 : ℕ) = 2 ^ 32 := by norm_num
  rw [p32]
  cases t
  · simp only [orWord, pack30, Nat.or_mod_two_pow, Nat.shiftLeft_eq, Nat.mod_mod]
    rw [Nat.or_assoc, Nat.or_assoc]
  · simp only [orWord, pack30, Nat.or_mod_two_pow, Nat.shiftLeft_eq, Nat.mod_mod]
    rw [Nat.or_comm (b * 2 ^ 2 % 2 ^ 32) (3 % 2 ^ 32), ← Nat.or_assoc, Nat.or_comm _ (3 % 2 ^ 32), ← Nat.or_assoc]

theorem zipHalf_words (t : Rgb30) (o : Ar30Order) {r : ℕ → ℕ} (g b : ℕ → ℕ) (hr : ∀ i, r i < 65536) :
    zipHalf t o (words r) (words g) (words b) = words fun i => pack30 .little t o (r i) (g i) (b i) := by
  have e : zipHalf t o (words r) (words g) (words b) = words fun i => ord30 o (orWord t (r i) (g i) (b i)) := by
    rw [← order128_words]
    unfold zipHalf
    cases t
    · dsimp only
      rw [show (3 * 2 ^ 30 : ℤ) = ((3 * 2 ^ 30 : ℕ) : ℤ) by norm_num, set1epi32_words, slli32_words, slli32_words,
        or128_words, or128_words, or128_words]
      rfl
    · dsimp only
      rw [show (3 : ℤ) = ((3 : ℕ) : ℤ) by norm_num, set1epi32_words, slli32_words, slli32_words, slli32_words,
        or128_words, or128_words, or128_words]
      rfl
  rw [e]
  exact words_congr fun i _ => orWord_pack t o _ _ (hr i)

theorem words_toNe (f : ℕ → ℕ) : words f = (List.range 4).flatMap fun i => toNeBytes .little (f i) := by
  rw [words_eq]
  simp only [toNe_list]
  rfl

theorem zip4_of (t : Rgb30) (o : Ar30Order) {r g b : ℕ → ℕ} (hr : ∀ i, r i < 65536) (hg : ∀ i, g i < 65536)
    (hb : ∀ i, b i < 65536) :
    zip4 t o (lanes8 fun i => (r i : ℤ)) (lanes8 fun i => (g i : ℤ)) (lanes8 fun i => (b i : ℤ)) =
      (List.range 32).map fun p => pxByte t o (fun c => if c = 0 then r (p / 4) else if c = 1 then g (p / 4) else b (p / 4)) (p % 4) := by
  obtain ⟨r0, r1⟩ := u16s_bounds r hr
  obtain ⟨g0, g1⟩ := u16s_bounds g hg
  obtain ⟨b0, b1⟩ := u16s_bounds b hb
  unfold zip4
  rw [unpacklo16_zero r0 r1, unpacklo16_zero g0 g1, unpacklo16_zero b0 b1, unpackhi16_zero r0 r1, unpackhi16_zero g0 g1,
    unpackhi16_zero b0 b1]
  have h1 := zipHalf_words t o g b hr
  have h2 := zipHalf_words t o (fun i => g (4 + i)) (fun i => b (4 + i)) (fun i => hr (4 + i))
  unfold words at h1 h2
  rw [h1, h2]
  have w1 := words_toNe fun i => pack30 .little t o (r i) (g i) (b i)
  have w2 := words_toNe fun i => pack30 .little t o (r (4 + i)) (g (4 + i)) (b (4 + i))
  unfold words at w1 w2
  rw [w1, w2]
  rfl

/-! ### 64-bit lanes -/

/-- A register with two 64-bit lanes. -/
def dw (x y : ℕ) : Reg := bytes64 x ++ bytes64 y

theorem bytes64_eq (v : ℕ) : bytes64 v = [v % 2 ^ 8, v / 2 ^ 8 % 2 ^ 8, v / 2 ^ 16 % 2 ^ 8, v / 2 ^ 24 % 2 ^ 8,
    v / 2 ^ 32 % 2 ^ 8, v / 2 ^ 40 % 2 ^ 8, v / 2 ^ 48 % 2 ^ 8, v / 2 ^ 56 % 2 ^ 8] := by
  unfold bytes64
  simp only [List.range, List.range.loop, List.map_cons, List.map_nil]
  norm_num

theorem leBytes_bytes64 (v : ℕ) : leBytes (bytes64 v) = v % 2 ^ 64 := by
  rw [bytes64_eq]
  simp only [leBytes, List.foldr_cons, List.foldr_nil]
  omega

theorem bytes64_length (v : ℕ) : (bytes64 v).length = 8 := by simp [bytes64]

theorem lanes64_dw (x y : ℕ) : lanes64 (dw x y) = [x % 2 ^ 64, y % 2 ^ 64] := by
  unfold lanes64 dw
  rw [List.take_left' (bytes64_length x), List.drop_left' (bytes64_length x), leBytes_bytes64, leBytes_bytes64]

theorem and128_dw (x y x' y' : ℕ) : and128 (dw x y) (dw x' y') = dw (x &&& x') (y &&& y') := by
  unfold dw
  simp only [bytes64_eq, and128, List.cons_append, List.nil_append, List.zipWith_cons_cons, List.zipWith_nil_left,
    Nat.and_div_two_pow, Nat.and_mod_two_pow]

theorem or128_dw (x y x' y' : ℕ) : or128 (dw x y) (dw x' y') = dw (x ||| x') (y ||| y') := by
  unfold dw
  simp only [bytes64_eq, or128, List.cons_append, List.nil_append, List.zipWith_cons_cons, List.zipWith_nil_left,
    Nat.or_div_two_pow, Nat.or_mod_two_pow]

theorem srli64_dw (n x y : ℕ) : srli64 n (dw x y) = dw (x % 2 ^ 64 / 2 ^ n) (y % 2 ^ 64 / 2 ^ n) := by
  unfold srli64
  rw [lanes64_dw]
  simp [dw]

theorem slli64_dw (n x y : ℕ) : slli64 n (dw x y) = dw (x % 2 ^ 64 * 2 ^ n) (y % 2 ^ 64 * 2 ^ n) := by
  unfold slli64
  rw [lanes64_dw]
  simp [dw]

theorem order128_dw (o : Ar30Order) (x y : ℕ) : (order128 o (dw x y)).take 4 = toNeBytes .little (ord30 o x) := by
  rw [toNe_list]
  unfold dw
  rw [bytes64_eq, bytes64_eq]
  cases o
  · rfl
  · simp only [ord30, (swap_byte _).1, (swap_byte _).2.1, (swap_byte _).2.2.1, (swap_byte _).2.2.2]
    rfl

/-- The first 64-bit lane of eight 16-bit lanes. -/
def lane64 (f : ℕ → ℤ) : ℕ := u16 (f 0) + u16 (f 1) * 2 ^ 16 + u16 (f 2) * 2 ^ 32 + u16 (f 3) * 2 ^ 48

theorem u16_lt (v : ℤ) : u16 v < 65536 := by unfold u16; omega

theorem lane_bytes (f : ℕ → ℤ) : bytes16 (f 0) ++ (bytes16 (f 1) ++ (bytes16 (f 2) ++ bytes16 (f 3))) = bytes64 (lane64 f) := by
  have e : ∀ v : ℤ, bytes16 v = [u16 v % 2 ^ 8, u16 v / 2 ^ 8] := by
    intro v
    unfold bytes16 u16
    refine congrArg₂ _ (by omega) (congrArg₂ _ (by omega) rfl)
  rw [e, e, e, e, bytes64_eq]
  unfold lane64
  have h0 := u16_lt (f 0)
  have h1 := u16_lt (f 1)
  have h2 := u16_lt (f 2)
  have h3 := u16_lt (f 3)
  generalize u16 (f 0) = a at *
  generalize u16 (f 1) = b at *
  generalize u16 (f 2) = c at *
  generalize u16 (f 3) = d at *
  simp only [List.cons_append, List.nil_append]
  refine congrArg₂ _ (by omega) (congrArg₂ _ (by omega) (congrArg₂ _ (by omega) (congrArg₂ _ (by omega)
    (congrArg₂ _ (by omega) (congrArg₂ _ (by omega) (congrArg₂ _ (by omega) (congrArg₂ _ (by omega) rfl)))))))

theorem lanes8_dw (f : ℕ → ℤ) : lanes8 f = dw (lane64 f) (lane64 fun i => f (4 + i)) := by
  unfold dw
  rw [← lane_bytes, ← lane_bytes]
  rfl

theorem set1epi64_dw (v : ℕ) : set1epi64 v = dw v v := rfl

theorem extract30_of (t : Rgb30) (o : Ar30Order) (f : ℕ → ℤ) :
    (extract30 t o (lanes8 f)).take 4 = (List.range 4).map (pxByte t o fun c => u16 (f c) % 1024) := by
  rw [← pxByte_list]
  have h0 := u16_lt (f 0)
  have h1 := u16_lt (f 1)
  have h2 := u16_lt (f 2)
  have h3 := u16_lt (f 3)
  have e : ∃ y, extract30 t o (lanes8 f) =
      order128 o (dw (orWord t (u16 (f 0) % 1024) (u16 (f 1) % 1024) (u16 (f 2) % 1024)) y) := by
    unfold extract30
    rw [lanes8_dw, set1epi64_dw]
    dsimp only
    rw [srli64_dw, srli64_dw, and128_dw, and128_dw, and128_dw]
    simp only [and_3ff]
    have er : lane64 f % 1024 = u16 (f 0) % 1024 := by unfold lane64; omega
    have eg : lane64 f % 2 ^ 64 / 2 ^ 16 % 1024 = u16 (f 1) % 1024 := by unfold lane64; omega
    have eb : lane64 f % 2 ^ 64 / 2 ^ 32 % 1024 = u16 (f 2) % 1024 := by
      rw [Nat.mod_eq_of_lt (show lane64 f < 2 ^ 64 by unfold lane64; omega)]
      have : lane64 f / 2 ^ 32 = u16 (f 2) + 65536 * u16 (f 3) := by
        clear er eg
        unfold lane64
        omega
      rw [this]
      omega
    rw [er, eg, eb]
    have m : ∀ v : ℕ, v % 1024 % 2 ^ 64 = v % 1024 := fun v => by omega
    cases t
    · dsimp only
      rw [set1epi64_dw, slli64_dw, slli64_dw, or128_dw, or128_dw, or128_dw, m, m]
      exact ⟨_, rfl⟩
    · dsimp only
      rw [set1epi64_dw, slli64_dw, slli64_dw, slli64_dw, or128_dw, or128_dw, or128_dw, m, m, m]
      refine ⟨_, congrArg (order128 o) (congrArg₂ dw ?_ rfl)⟩
      unfold orWord
      dsimp only
      rw [Nat.or_assoc, Nat.or_assoc, Nat.or_assoc, Nat.or_assoc]
      congr 1
      rw [Nat.or_comm (_ * 2 ^ 12) (_ * 2 ^ 22), Nat.or_comm (_ * 2 ^ 2), Nat.or_assoc]
  obtain ⟨y, e⟩ := e
  rw [e, order128_dw, toNe_list, toNe_list]
  obtain ⟨a, b, c, d⟩ := bytes_congr (orWord_pack t o (u16 (f 1) % 1024) (u16 (f 2) % 1024)
    (show u16 (f 0) % 1024 < 65536 by omega))
  rw [a, b, c, d]

end PicScale
