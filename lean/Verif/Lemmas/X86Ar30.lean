import Verif.Model.X86Ar30
import Verif.Lemmas.X86U16H
import Verif.Lemmas.Ar30Dispatch

/-! The SSE4.1 helpers for packed 10-bit pixels: what they compute. -/

namespace PicScale

open Finset Spec

/-! ### words -/

/-- Four 32-bit lanes given by natural numbers (modulo `2^32`). -/
def words (f : ℕ → ℕ) : Reg := lanes4 fun i => (f i : ℤ)

theorem bytes32_nat (n : ℕ) : bytes32 (n : ℤ) = [n % 2 ^ 8, n / 2 ^ 8 % 2 ^ 8, n / 2 ^ 16 % 2 ^ 8, n / 2 ^ 24 % 2 ^ 8] := by
  unfold bytes32
  refine congrArg₂ _ (by omega) (congrArg₂ _ (by omega) (congrArg₂ _ (by omega) (congrArg₂ _ (by omega) rfl)))

theorem words_eq (f : ℕ → ℕ) : words f =
    [f 0 % 2 ^ 8, f 0 / 2 ^ 8 % 2 ^ 8, f 0 / 2 ^ 16 % 2 ^ 8, f 0 / 2 ^ 24 % 2 ^ 8,
     f 1 % 2 ^ 8, f 1 / 2 ^ 8 % 2 ^ 8, f 1 / 2 ^ 16 % 2 ^ 8, f 1 / 2 ^ 24 % 2 ^ 8,
     f 2 % 2 ^ 8, f 2 / 2 ^ 8 % 2 ^ 8, f 2 / 2 ^ 16 % 2 ^ 8, f 2 / 2 ^ 24 % 2 ^ 8,
     f 3 % 2 ^ 8, f 3 / 2 ^ 8 % 2 ^ 8, f 3 / 2 ^ 16 % 2 ^ 8, f 3 / 2 ^ 24 % 2 ^ 8] := by
  have e : words f = bytes32 (f 0 : ℤ) ++ (bytes32 (f 1 : ℤ) ++ (bytes32 (f 2 : ℤ) ++ (bytes32 (f 3 : ℤ) ++ []))) := rfl
  rw [e, bytes32_nat, bytes32_nat, bytes32_nat, bytes32_nat]
  rfl

theorem bytes_congr {a b : ℕ} (h : a % 4294967296 = b % 4294967296) : a % 2 ^ 8 = b % 2 ^ 8 ∧
    a / 2 ^ 8 % 2 ^ 8 = b / 2 ^ 8 % 2 ^ 8 ∧ a / 2 ^ 16 % 2 ^ 8 = b / 2 ^ 16 % 2 ^ 8 ∧ a / 2 ^ 24 % 2 ^ 8 = b / 2 ^ 24 % 2 ^ 8 := by
  omega

theorem words_congr {f g : ℕ → ℕ} (h : ∀ i, i < 4 → f i % 4294967296 = g i % 4294967296) : words f = words g := by
  rw [words_eq, words_eq]
  obtain ⟨a0, a1, a2, a3⟩ := bytes_congr (h 0 (by omega))
  obtain ⟨b0, b1, b2, b3⟩ := bytes_congr (h 1 (by omega))
  obtain ⟨c0, c1, c2, c3⟩ := bytes_congr (h 2 (by omega))
  obtain ⟨d0, d1, d2, d3⟩ := bytes_congr (h 3 (by omega))
  rw [a0, a1, a2, a3, b0, b1, b2, b3, c0, c1, c2, c3, d0, d1, d2, d3]

theorem and128_words (f g : ℕ → ℕ) : and128 (words f) (words g) = words fun i => f i &&& g i := by
  rw [words_eq, words_eq, words_eq]
  simp only [and128, List.zipWith_cons_cons, List.zipWith_nil_left, Nat.and_div_two_pow, Nat.and_mod_two_pow]

theorem or128_words (f g : ℕ → ℕ) : or128 (words f) (words g) = words fun i => f i ||| g i := by
  rw [words_eq, words_eq, words_eq]
  simp only [or128, List.zipWith_cons_cons, List.zipWith_nil_left, Nat.or_div_two_pow, Nat.or_mod_two_pow]

theorem set1epi32_words (v : ℕ) : set1epi32 (v : ℤ) = words fun _ => v := set1epi32_of _

theorem srli32_words (n : ℕ) {f : ℕ → ℕ} (hf : ∀ i, f i < 2 ^ 32) : srli32 n (words f) = words fun i => f i / 2 ^ n := by
  unfold words
  rw [srli32_of]
  apply lanes4_congr
  intro i _
  rw [i32_emod, Int.shiftRight_eq_div_pow]
  have := hf i
  rw [Int.emod_eq_of_lt (by omega) (by omega)]
  push_cast
  rfl

theorem bytes32_congr {a b : ℤ} (h : a % 4294967296 = b % 4294967296) : bytes32 a = bytes32 b := by
  unfold bytes32
  refine congrArg₂ _ (by omega) (congrArg₂ _ (by omega) (congrArg₂ _ (by omega) (congrArg₂ _ (by omega) rfl)))

theorem slli32_of (n : ℕ) (f : ℕ → ℤ) : slli32 n (lanes4 f) = lanes4 fun i => f i * 2 ^ n := by
  have key : ∀ i, bytes32 (i32 (f i) * 2 ^ n) = bytes32 (f i * 2 ^ n) := fun i => bytes32_congr (by
    rw [Int.mul_emod, i32_emod, ← Int.mul_emod])
  unfold slli32 lanes4
  rw [lanes32_ofLanes32, List.map_map, List.map_map]
  unfold ofLanes32
  rw [List.flatMap_map, List.flatMap_map]
  exact List.flatMap_congr fun i _ => key i

theorem slli32_words (n : ℕ) (f : ℕ → ℕ) : slli32 n (words f) = words fun i => f i * 2 ^ n := by
  unfold words
  rw [slli32_of]
  apply lanes4_congr
  intro i _
  push_cast
  rfl

theorem swap_byte (v : ℕ) : swapBytes v % 2 ^ 8 = v / 2 ^ 24 % 2 ^ 8 ∧ swapBytes v / 2 ^ 8 % 2 ^ 8 = v / 2 ^ 16 % 2 ^ 8 ∧
    swapBytes v / 2 ^ 16 % 2 ^ 8 = v / 2 ^ 8 % 2 ^ 8 ∧ swapBytes v / 2 ^ 24 % 2 ^ 8 = v % 2 ^ 8 := by
  rw [swapBytes_eq]
  have h0 : v % 256 < 256 := Nat.mod_lt _ (by norm_num)
  have h1 : v / 2 ^ 8 % 256 < 256 := Nat.mod_lt _ (by norm_num)
  have h2 : v / 2 ^ 16 % 256 < 256 := Nat.mod_lt _ (by norm_num)
  have h3 : v / 2 ^ 24 % 256 < 256 := Nat.mod_lt _ (by norm_num)
  obtain ⟨a, b, c, d⟩ := digits_of h0 h1 h2 h3
  exact ⟨a, b, c, d⟩

theorem rev128_words (f : ℕ → ℕ) : rev128 (words f) = words fun i => swapBytes (f i) := by
  rw [words_eq, words_eq]
  simp only [(swap_byte _).1, (swap_byte _).2.1, (swap_byte _).2.2.1, (swap_byte _).2.2.2]
  rfl

/-- The bytes of a word in the order of the format. -/
def ord30 (o : Ar30Order) (v : ℕ) : ℕ :=
  match o with
  | .host => v
  | .network => swapBytes v

theorem order128_words (o : Ar30Order) (f : ℕ → ℕ) : order128 o (words f) = words fun i => ord30 o (f i) := by
  cases o
  · rfl
  · exact rev128_words f

theorem swapBytes_lt (v : ℕ) : swapBytes v < 2 ^ 32 := by
  rw [swapBytes_eq]; omega

theorem ord30_lt (o : Ar30Order) {v : ℕ} (h : v < 2 ^ 32) : ord30 o v < 2 ^ 32 := by
  cases o
  · exact h
  · exact swapBytes_lt v

/-- The number in four bytes. -/
def word4 (p : ℕ → ℕ) : ℕ := fromNeBytes .little (p 0) (p 1) (p 2) (p 3)

theorem word4_eq {p : ℕ → ℕ} (h : ∀ i, p i < 256) : word4 p = p 3 * 2 ^ 24 + p 2 * 2 ^ 16 + p 1 * 2 ^ 8 + p 0 :=
  four_or (h 0) (h 1) (h 2)

theorem word4_lt {p : ℕ → ℕ} (h : ∀ i, p i < 256) : word4 p < 2 ^ 32 := by
  rw [word4_eq h]
  have := h 0; have := h 1; have := h 2; have := h 3
  omega

theorem bytesOf_words {p : ℕ → ℕ} (h : ∀ i, p i < 256) : bytesOf p = words fun i => word4 fun k => p (4 * i + k) := by
  have d : ∀ i, word4 (fun k => p (4 * i + k)) % 2 ^ 8 = p (4 * i) ∧
      word4 (fun k => p (4 * i + k)) / 2 ^ 8 % 2 ^ 8 = p (4 * i + 1) ∧
      word4 (fun k => p (4 * i + k)) / 2 ^ 16 % 2 ^ 8 = p (4 * i + 2) ∧
      word4 (fun k => p (4 * i + k)) / 2 ^ 24 % 2 ^ 8 = p (4 * i + 3) := by
    intro i
    rw [word4_eq fun k => h _]
    exact digits_of (h _) (h _) (h _) (h _)
  rw [words_eq]
  simp only [(d _).1, (d _).2.1, (d _).2.2.1, (d _).2.2.2]
  rfl

theorem field30_words (n : ℕ) {f : ℕ → ℕ} (hf : ∀ i, f i < 2 ^ 32) :
    field30 n (words f) = words fun i => f i / 2 ^ n % 1024 := by
  unfold field30
  have e : (if n = 0 then words f else srli32 n (words f)) = words fun i => f i / 2 ^ n := by
    split_ifs with h
    · subst h; simp
    · exact srli32_words n hf
  rw [e, show (0x3ff : ℤ) = ((1023 : ℕ) : ℤ) from rfl, set1epi32_words, and128_words]
  simp only [and_3ff]

theorem packus_words {f g : ℕ → ℕ} (hf : ∀ i, f i < 65536) (hg : ∀ i, g i < 65536) :
    packus32 (words f) (words g) = lanes8 fun i => ((if i < 4 then f i else g (i - 4) : ℕ) : ℤ) := by
  unfold words
  rw [packus32_of]
  apply lanes8_congr
  intro i _
  have h1 := hf i
  have h2 := hg (i - 4)
  split_ifs
  · rw [i32_eq_self (by omega) (by omega)]; omega
  · rw [i32_eq_self (by omega) (by omega)]; omega

/-! ### unpacking -/

/-- Bit position used for component `c`. -/
def sh30 (t : Rgb30) (c : ℕ) : ℕ :=
  match t with
  | .ar30 => if c = 0 then 0 else if c = 1 then 10 else 20
  | .ra30 => if c = 0 then 22 else if c = 1 then 12 else 2

/-- The little endian format. -/
abbrev fmtLE (t : Rgb30) (o : Ar30Order) : Fmt30 := ⟨.little, t, o⟩

theorem raw30_word (t : Rgb30) (o : Ar30Order) (p : ℕ → ℕ) {c : ℕ} (hc : c < 3) :
    raw30 (fmtLE t o) p c = ord30 o (word4 p) / 2 ^ sh30 t c % 1024 := by
  have h3 : c = 0 ∨ c = 1 ∨ c = 2 := by omega
  unfold raw30 unpack30 word4 ord30 sh30
  cases o <;> cases t <;> rcases h3 with rfl | rfl | rfl <;>
    simp [and_3ff, Nat.shiftRight_eq_div_pow, toBe]

theorem field30_px (t : Rgb30) (o : Ar30Order) {p : ℕ → ℕ} (h : ∀ i, p i < 256) {c : ℕ} (hc : c < 3) :
    field30 (sh30 t c) (order128 o (bytesOf p)) = words fun i => raw30 (fmtLE t o) (fun k => p (4 * i + k)) c := by
  rw [bytesOf_words h, order128_words, field30_words _ fun i => ord30_lt o (word4_lt fun k => h _)]
  simp only [raw30_word t o _ hc]

/-- Component `c` of pixel `i` of a block of bytes. -/
def px30 (t : Rgb30) (o : Ar30Order) (p : ℕ → ℕ) (c i : ℕ) : ℕ := raw30 (fmtLE t o) (fun k => p (4 * i + k)) c

theorem px30_lt (t : Rgb30) (o : Ar30Order) (p : ℕ → ℕ) (c i : ℕ) : px30 t o p c i < 65536 :=
  lt_of_le_of_lt (raw30_le _ _ _) (by norm_num)

theorem plane30 (t : Rgb30) (o : Ar30Order) {p : ℕ → ℕ} (h : ∀ i, p i < 256) {c : ℕ} (hc : c < 3) :
    packus32 (field30 (sh30 t c) (order128 o (bytesOf p))) (field30 (sh30 t c) (order128 o (bytesOf fun i => p (16 + i)))) =
      lanes8 fun i => (px30 t o p c i : ℤ) := by
  rw [field30_px t o h hc, field30_px t o (fun i => h _) hc,
    packus_words (fun i => lt_of_le_of_lt (raw30_le _ _ _) (by norm_num)) (fun i => lt_of_le_of_lt (raw30_le _ _ _) (by norm_num))]
  apply lanes8_congr
  intro i hi
  congr 1
  unfold px30
  split_ifs
  · rfl
  · apply raw30_congr
    intro k _
    congr 1
    omega

theorem unzip3_of (t : Rgb30) (o : Ar30Order) {p : ℕ → ℕ} (h : ∀ i, p i < 256) :
    unzip3 t o (bytesOf p) (bytesOf fun i => p (16 + i)) =
      (lanes8 fun i => (px30 t o p 0 i : ℤ), lanes8 fun i => (px30 t o p 1 i : ℤ), lanes8 fun i => (px30 t o p 2 i : ℤ)) := by
  rw [← plane30 t o h (c := 0) (by omega), ← plane30 t o h (c := 1) (by omega), ← plane30 t o h (c := 2) (by omega)]
  cases t <;> rfl

theorem unzips3_of (t : Rgb30) (o : Ar30Order) {p : ℕ → ℕ} (h : ∀ i, p i < 256) :
    unzips3 t o (bytesOf p) =
      (lanes8 fun i => (px30 t o p 0 (i % 4) : ℤ), lanes8 fun i => (px30 t o p 1 (i % 4) : ℤ),
        lanes8 fun i => (px30 t o p 2 (i % 4) : ℤ)) := by
  have key : ∀ c, c < 3 → packus32 (field30 (sh30 t c) (order128 o (bytesOf p))) (field30 (sh30 t c) (order128 o (bytesOf p))) =
      lanes8 fun i => (px30 t o p c (i % 4) : ℤ) := by
    intro c hc
    rw [field30_px t o h hc, packus_words (fun i => lt_of_le_of_lt (raw30_le _ _ _) (by norm_num)) (fun i => lt_of_le_of_lt (raw30_le _ _ _) (by norm_num))]
    apply lanes8_congr
    intro i hi
    congr 1
    unfold px30
    split_ifs
    · rw [show i % 4 = i by omega]
    · rw [show i % 4 = i - 4 by omega]
  rw [← key 0 (by omega), ← key 1 (by omega), ← key 2 (by omega)]
  cases t <;> rfl

/-- Two pixels in a register, four 16-bit lanes each; the fourth lane is 3. -/
def duo (f g : ℕ → ℕ) : Reg := lanes8 fun i => ((if i < 4 then f i else g (i - 4) : ℕ) : ℤ)

/-- The four lanes of pixel `i`. -/
def quad30 (t : Rgb30) (o : Ar30Order) (p : ℕ → ℕ) (i c : ℕ) : ℕ := px30 t o p c i

theorem px30_alpha (t : Rgb30) (o : Ar30Order) (p : ℕ → ℕ) (i : ℕ) : px30 t o p 3 i = 3 := raw30_alpha _ _

theorem unzip4_of (t : Rgb30) (o : Ar30Order) {p : ℕ → ℕ} (h : ∀ i, p i < 256) :
    unzip4 t o (bytesOf p) (bytesOf fun i => p (16 + i)) =
      (duo (quad30 t o p 0) (quad30 t o p 1), duo (quad30 t o p 4) (quad30 t o p 5),
        duo (quad30 t o p 2) (quad30 t o p 3), duo (quad30 t o p 6) (quad30 t o p 7)) := by
  have a : ∀ i, (3 : ℤ) = (px30 t o p 3 i : ℤ) := fun i => by rw [px30_alpha]; rfl
  have e3 : set1epi16 3 = lanes8 fun i => (px30 t o p 3 i : ℤ) := by
    rw [set1epi16_of]; exact lanes8_congr fun i _ => a i
  unfold unzip4
  rw [unzip3_of t o h, e3]
  dsimp only
  rw [unpacklo16_of, unpackhi16_of, unpacklo16_of, unpackhi16_of, unpacklo32_of, unpackhi32_of, unpacklo32_of, unpackhi32_of]
  rfl

theorem unpacklo64_of (f g : ℕ → ℤ) : unpacklo64 (lanes8 f) (lanes8 g) = lanes8 fun i => if i < 4 then f i else g (i - 4) := rfl

theorem unzips4_of (t : Rgb30) (o : Ar30Order) {p : ℕ → ℕ} (h : ∀ i, p i < 256) :
    unzips4 t o (bytesOf p) =
      (duo (quad30 t o p 0) (quad30 t o p 0), duo (quad30 t o p 2) (quad30 t o p 2)) := by
  have a : ∀ i, (3 : ℤ) = (px30 t o p 3 (i % 4) : ℤ) := fun i => by rw [px30_alpha]; rfl
  have e3 : set1epi16 3 = lanes8 fun i => (px30 t o p 3 (i % 4) : ℤ) := by
    rw [set1epi16_of]; exact lanes8_congr fun i _ => a i
  unfold unzips4
  rw [unzips3_of t o h, e3]
  dsimp only
  rw [unpacklo16_of, unpackhi16_of, unpacklo16_of, unpackhi16_of, unpacklo32_of, unpackhi32_of, unpacklo32_of, unpackhi32_of,
    unpacklo64_of, unpacklo64_of]
  rfl

theorem shuffle_sh1 (f : ℕ → ℤ) : shuffle8 (lanes8 f) sh1 = ofLanes16 [f 0, f 4, f 1, f 5, f 2, f 6, f 3, f 7] := rfl

/-- Two taps. -/
theorem dotSh1_of (m : ℕ → ℤ) (f g : ℕ → ℕ) (w0 w1 : ℤ) :
    dotSh1 (lanes4 m) (duo f g) (set1bytes32 (ofLanes16 [w0, w1])) =
      lanes4 fun c => i32 (m c + (i16 (f c : ℤ) * i16 w0 + i16 (g c : ℤ) * i16 w1)) := by
  unfold dotSh1 duo
  rw [shuffle_sh1]
  exact madd_add [m 0, m 1, m 2, m 3] _ _ _ _ _ _ _ _ _ _ _ _ _ _ _ _ _ _ _ _ rfl _ _
    (lanes16_ofLanes16 _) (lanes_pair w0 w1)

end PicScale
