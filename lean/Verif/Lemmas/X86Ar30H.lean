import Verif.Lemmas.X86Ar30Pack
import Verif.SpecX86Ar30

/-! The SSE4.1 row handlers for packed 10-bit pixels. -/

namespace PicScale

open Finset Spec

/-- Component `c` of pixel `j` of the window, from the samples `f` of the row. -/
def tapRaw (t : Rgb30) (o : Ar30Order) (b : Bounds) (f : ℕ → ℕ) (c j : ℕ) : ℕ :=
  raw30 (fmtLE t o) (fun i => f ((b.start + j) * 4 + i) % 256) c

/-- Accumulator of component `c` after `n` taps. -/
def hAcc30 (P : ℕ) (t : Rgb30) (o : Ar30Order) (w : List ℤ) (b : Bounds) (f : ℕ → ℕ) (n c : ℕ) : ℤ :=
  i32 ((2 ^ (P - 1) - 1) + wsum n (fun k => i16 (w.getD k 0)) (fun k => (tapRaw t o b f c (tapPixel b.size k) : ℤ)))

theorem i16_tapRaw (t : Rgb30) (o : Ar30Order) (b : Bounds) (f : ℕ → ℕ) (c j : ℕ) :
    i16 (tapRaw t o b f c j : ℤ) = (tapRaw t o b f c j : ℤ) := by
  have := raw30_le (fmtLE t o) (fun i => f ((b.start + j) * 4 + i) % 256) c
  apply i16_eq_self
  · omega
  · unfold tapRaw; omega

section
variable (P : ℕ) (t : Rgb30) (o : Ar30Order) (w : List ℤ) (b : Bounds) (f : ℕ → ℕ)

theorem hAcc30_one {n j : ℕ} (c : ℕ) (hj : tapPixel b.size n = j) :
    i32 (hAcc30 P t o w b f n c + i16 (tapRaw t o b f c j : ℤ) * i16 (w.getD n 0)) = hAcc30 P t o w b f (n + 1) c := by
  unfold hAcc30
  rw [i32_i32_add, i16_tapRaw, wsum_succ, hj, mul_comm (i16 (w.getD n 0)), add_assoc]

theorem hAcc30_two {n j j' : ℕ} (c : ℕ) (hj : tapPixel b.size n = j) (hj' : tapPixel b.size (n + 1) = j') :
    i32 (hAcc30 P t o w b f n c + (i16 (tapRaw t o b f c j : ℤ) * i16 (w.getD n 0) +
      i16 (tapRaw t o b f c j' : ℤ) * i16 (w.getD (n + 1) 0))) = hAcc30 P t o w b f (n + 2) c := by
  rw [← hAcc30_one P t o w b f c hj', ← hAcc30_one P t o w b f c hj, i32_i32_add, add_assoc]

/-- A register with the accumulators after `n` taps. -/
def H30Inv (n : ℕ) (s : Reg) : Prop := ∃ m : ℕ → ℤ, s = lanes4 m ∧ ∀ c, c < 3 → m c = hAcc30 P t o w b f n c

theorem duo_step {n j j' : ℕ} {s : Reg} {F G : ℕ → ℕ} (hs : H30Inv P t o w b f n s)
    (hF : ∀ c, F c = tapRaw t o b f c j) (hG : ∀ c, G c = tapRaw t o b f c j')
    (hj : tapPixel b.size n = j) (hj' : tapPixel b.size (n + 1) = j') :
    H30Inv P t o w b f (n + 2) (dotSh1 s (duo F G) (set1bytes32 (ofLanes16 [w.getD n 0, w.getD (n + 1) 0]))) := by
  obtain ⟨m, rfl, hm⟩ := hs
  rw [dotSh1_of]
  refine ⟨_, rfl, fun c hc => ?_⟩
  rw [hm c hc, hF, hG, hAcc30_two P t o w b f c hj hj']

end

variable {P : ℕ} {t : Rgb30} {o : Ar30Order} {src offs : List ℕ} {w : List ℤ} {b : Bounds}

/-- The row that starts at `off`. -/
def rowFn (src : List ℕ) (off i : ℕ) : ℕ := src.getD (off + i) 0

theorem quad_tap (off jx i c : ℕ) :
    quad30 t o (fun k => src.getD (off + (b.start + jx) * 4 + k) 0 % 256) i c =
      tapRaw t o b (rowFn src off) c (jx + i) := by
  unfold quad30 px30 tapRaw rowFn
  apply raw30_congr
  intro k _
  dsimp only
  congr 2
  omega

theorem load_two {off : ℕ} (h : off + 32 ≤ src.length) :
    load128 src off = some (bytesOf fun k => src.getD (off + k) 0 % 256) ∧
    load128 src (off + 16) = some (bytesOf fun k => (fun k => src.getD (off + k) 0 % 256) (16 + k)) := by
  refine ⟨load128_eq (by omega), ?_⟩
  rw [load128_eq (by omega)]
  simp only [Nat.add_assoc]

theorem ar30Px8_inv (h : HPre 4 src offs w b) {off : ℕ} (ho : off ∈ offs) {jx : ℕ} (h8 : jx % 8 = 0)
    (hj : jx + 8 < b.size) (s : Reg) (hs : H30Inv P t o w b (rowFn src off) jx s) :
    ∃ s', ar30Px8 t o src w b jx off s = some s' ∧ H30Inv P t o w b (rowFn src off) (jx + 8) s' := by
  have hr := h.room ho (k := jx + 8) (by omega)
  have hw := h.weights
  obtain ⟨l0, l1⟩ := load_two (src := src) (off := off + (b.start + jx) * 4) (by omega)
  have p8 : ∀ i, i < 8 → tapPixel b.size (jx + i) =
      if i = 2 ∨ i = 3 then jx + i + 2 else if i = 4 ∨ i = 5 then jx + i - 2 else jx + i := by
    intro i hi
    unfold tapPixel
    rw [if_pos (by omega), show (jx + i) % 8 = i by omega]
  unfold ar30Px8
  rw [weightBytes_two (by omega), weightBytes_two (by omega), weightBytes_two (by omega), weightBytes_two (by omega), l0, l1]
  simp only [Option.bind_eq_bind, Option.bind_some]
  rw [unzip4_of t o fun i => Nat.mod_lt _ (by norm_num)]
  refine ⟨_, rfl, ?_⟩
  have q := fun i c => quad_tap (src := src) (t := t) (o := o) (b := b) off jx i c
  have s1 := duo_step P t o w b (rowFn src off) hs (q 0) (q 1) (p8 0 (by omega)) (p8 1 (by omega))
  have s2 := duo_step P t o w b (rowFn src off) s1 (q 4) (q 5) (p8 2 (by omega)) (p8 3 (by omega))
  have s3 := duo_step P t o w b (rowFn src off) s2 (q 2) (q 3) (p8 4 (by omega)) (p8 5 (by omega))
  exact duo_step P t o w b (rowFn src off) s3 (q 6) (q 7) (p8 6 (by omega)) (p8 7 (by omega))

theorem ar30Px4_inv (h : HPre 4 src offs w b) {off : ℕ} (ho : off ∈ offs) {jx : ℕ} (h4 : jx % 4 = 0)
    (h8 : (b.size - 1) / 8 * 8 ≤ jx) (hj : jx + 4 < b.size) (s : Reg) (hs : H30Inv P t o w b (rowFn src off) jx s) :
    ∃ s', ar30Px4 t o src w b jx off s = some s' ∧ H30Inv P t o w b (rowFn src off) (jx + 4) s' := by
  have hr := h.room ho (k := jx + 4) (by omega)
  have hw := h.weights
  have p4 : ∀ i, i < 4 → tapPixel b.size (jx + i) = jx + (i - i % 2) := by
    intro i hi
    unfold tapPixel
    rw [if_neg (by omega), if_pos (by omega)]
    omega
  unfold ar30Px4
  rw [weightBytes_two (by omega), weightBytes_two (by omega), load128_eq (by omega)]
  simp only [Option.bind_eq_bind, Option.bind_some]
  rw [unzips4_of t o fun i => Nat.mod_lt _ (by norm_num)]
  refine ⟨_, rfl, ?_⟩
  have q := fun i c => quad_tap (src := src) (t := t) (o := o) (b := b) off jx i c
  have s1 := duo_step P t o w b (rowFn src off) hs (q 0) (q 0) (p4 0 (by omega)) (p4 1 (by omega))
  exact duo_step P t o w b (rowFn src off) s1 (q 2) (q 2) (p4 2 (by omega)) (p4 3 (by omega))

theorem ar30Px1_inv (h : HPre 4 src offs w b) {off : ℕ} (ho : off ∈ offs) {jx : ℕ}
    (h4 : (b.size - 1) / 4 * 4 ≤ jx) (hj : jx < b.size) (s : Reg) (hs : H30Inv P t o w b (rowFn src off) jx s) :
    ∃ s', ar30Px1 t o src w b jx off s = some s' ∧ H30Inv P t o w b (rowFn src off) (jx + 1) s' := by
  have hr := h.room ho (k := jx + 1) (by omega)
  have hw := h.weights
  have p1 : tapPixel b.size jx = jx := by
    unfold tapPixel
    rw [if_neg (by omega), if_neg (by omega)]
  obtain ⟨m, rfl, hm⟩ := hs
  unfold ar30Px1 ld1
  rw [h.getW hj, loadBytes_eq (by omega)]
  simp only [Option.bind_eq_bind, Option.bind_some]
  refine ⟨_, rfl, ?_⟩
  have q : ∀ c, raw30 (fmtLE t o) (fun k => src.getD (off + (b.start + jx) * 4 + k) 0 % 256) c =
      tapRaw t o b (rowFn src off) c jx := by
    intro c
    have := quad_tap (src := src) (t := t) (o := o) (b := b) off jx 0 c
    simpa [quad30, px30] using this
  let v : ℕ → ℕ := fun c => if c < 3 then tapRaw t o b (rowFn src off) c jx else if c = 3 then 1023 else 0
  have hv : ∀ c, v c < 65536 := by
    intro c
    have := raw30_le (fmtLE t o) (fun i => rowFn src off ((b.start + jx) * 4 + i) % 256) c
    simp only [v, tapRaw]
    split_ifs <;> omega
  have reg : ofLanes16 [((unpack30 .little t o (fromNeBytes .little
        (((List.range 4).map fun c => src.getD (off + (b.start + jx) * 4 + c) 0 % 256).getD 0 0)
        (((List.range 4).map fun c => src.getD (off + (b.start + jx) * 4 + c) 0 % 256).getD 1 0)
        (((List.range 4).map fun c => src.getD (off + (b.start + jx) * 4 + c) 0 % 256).getD 2 0)
        (((List.range 4).map fun c => src.getD (off + (b.start + jx) * 4 + c) 0 % 256).getD 3 0))).getD 0 0 : ℤ),
      ((unpack30 .little t o (fromNeBytes .little
        (((List.range 4).map fun c => src.getD (off + (b.start + jx) * 4 + c) 0 % 256).getD 0 0)
        (((List.range 4).map fun c => src.getD (off + (b.start + jx) * 4 + c) 0 % 256).getD 1 0)
        (((List.range 4).map fun c => src.getD (off + (b.start + jx) * 4 + c) 0 % 256).getD 2 0)
        (((List.range 4).map fun c => src.getD (off + (b.start + jx) * 4 + c) 0 % 256).getD 3 0))).getD 1 0 : ℤ),
      ((unpack30 .little t o (fromNeBytes .little
        (((List.range 4).map fun c => src.getD (off + (b.start + jx) * 4 + c) 0 % 256).getD 0 0)
        (((List.range 4).map fun c => src.getD (off + (b.start + jx) * 4 + c) 0 % 256).getD 1 0)
        (((List.range 4).map fun c => src.getD (off + (b.start + jx) * 4 + c) 0 % 256).getD 2 0)
        (((List.range 4).map fun c => src.getD (off + (b.start + jx) * 4 + c) 0 % 256).getD 3 0))).getD 2 0 : ℤ), 1023] ++
      List.replicate 8 0 = lanes8 fun i => (v i : ℤ) := by
    have e0 := q 0
    have e1 := q 1
    have e2 := q 2
    unfold raw30 at e0 e1 e2
    have z : lanes8 (fun i => (v i : ℤ)) = ofLanes16 [(tapRaw t o b (rowFn src off) 0 jx : ℤ),
      (tapRaw t o b (rowFn src off) 1 jx : ℤ), (tapRaw t o b (rowFn src off) 2 jx : ℤ), 1023] ++ List.replicate 8 0 := by
      have z1 : lanes8 (fun i => (v i : ℤ)) = ofLanes16 [(v 0 : ℤ), (v 1 : ℤ), (v 2 : ℤ), (v 3 : ℤ)] ++
        ofLanes16 [(v 4 : ℤ), (v 5 : ℤ), (v 6 : ℤ), (v 7 : ℤ)] := rfl
      have v0 : v 0 = tapRaw t o b (rowFn src off) 0 jx := if_pos (by omega)
      have v1 : v 1 = tapRaw t o b (rowFn src off) 1 jx := if_pos (by omega)
      have v2 : v 2 = tapRaw t o b (rowFn src off) 2 jx := if_pos (by omega)
      have v3 : v 3 = 1023 := by simp [v]
      have v4 : v 4 = 0 := by simp [v]
      have v5 : v 5 = 0 := by simp [v]
      have v6 : v 6 = 0 := by simp [v]
      have v7 : v 7 = 0 := by simp [v]
      rw [z1, v0, v1, v2, v3, v4, v5, v6, v7]
      rfl
    rw [z, ← e0, ← e1, ← e2]
    rfl
  rw [reg, unpacklo16_zero (u16s_bounds v hv).1 (u16s_bounds v hv).2, wdot4 m v hv]
  refine ⟨_, rfl, fun c hc => ?_⟩
  have ev : v c = tapRaw t o b (rowFn src off) c jx := if_pos hc
  rw [hm c hc, ev, mul_comm, hAcc30_one P t o w b (rowFn src off) c p1]

/-- What `srai`, `packus` and the signed `min` make of an accumulator. -/
def lane30 (P : ℕ) (cut v : ℤ) : ℕ := u16 (min (i16 (max 0 (min (i32 (i32 v >>> P)) 65535))) (i16 cut))

theorem srai32_gen (P : ℕ) (f : ℕ → ℤ) : srai32 P (lanes4 f) = lanes4 fun i => i32 (f i) >>> P := by
  unfold srai32 lanes4
  rw [lanes32_ofLanes32, List.map_map, List.map_map]
  rfl

theorem ar30Store_of (cut : ℕ → ℤ) (m : ℕ → ℤ) : ar30Store t o P (lanes8 cut) (lanes4 m) =
    (List.range 4).map (pxByte t o fun c => lane30 P (cut c) (if c < 4 then m c else m (c - 4)) % 1024) := by
  unfold ar30Store
  dsimp only
  rw [srai32_gen, packus32_of, min16_of, extract30_of]
  apply List.map_congr_left
  intro k _
  refine congrArg (fun q => pxByte t o q k) ?_
  funext c
  unfold lane30
  split_ifs <;> rfl

theorem pxByte_congr {q q' : ℕ → ℕ} (h : ∀ c, c < 3 → q c = q' c) (k : ℕ) : pxByte t o q k = pxByte t o q' k := by
  unfold pxByte
  rw [h 0 (by omega), h 1 (by omega), h 2 (by omega)]

/-- Byte `k` of the pixel written by the row handlers. -/
def hVal30 (P : ℕ) (cut : ℕ → ℤ) (t : Rgb30) (o : Ar30Order) (w : List ℤ) (b : Bounds) (f : ℕ → ℕ) (k : ℕ) : ℕ :=
  pxByte t o (fun c => lane30 P (cut c) (hAcc30 P t o w b f b.size c) % 1024) k

theorem ar30Sse_ok (cut : ℕ → ℤ) (h : HPre 4 src offs w b) : ar30Sse t o P (lanes8 cut) src offs w b =
    some (offs.map fun off => (List.range 4).map fun k => hVal30 P cut t o w b (fun i => src.getD (off + i) 0) k) := by
  have hsz := h.size
  unfold ar30Sse
  have h0 : List.Forall₂ (fun off s => H30Inv P t o w b (rowFn src off) 0 s) offs
      (offs.map fun _ => set1epi32 (2 ^ (P - 1) - 1)) := forall₂_init _ _ fun off _ => by
    refine ⟨fun _ => i32 (2 ^ (P - 1) - 1), ?_, fun c _ => ?_⟩
    · rw [set1epi32_of]
      have e : bytes32 (2 ^ (P - 1) - 1) = bytes32 (i32 (2 ^ (P - 1) - 1)) := bytes32_congr (by rw [i32_emod])
      unfold lanes4 ofLanes32
      rw [List.flatMap_map, List.flatMap_map]
      exact List.flatMap_congr fun i _ => e
    · unfold hAcc30 wsum
      rw [sum_range_zero, add_zero]
  obtain ⟨n1, st1, a1, a2, a3, a4, a5⟩ := rowsLoop_inv (P := fun off n s => H30Inv P t o w b (rowFn src off) n s)
    (margin := 8) (step := 8) (size := b.size) (jx := 0) (f := ar30Px8 t o src w b) (by omega) (by omega)
    (fun m hm off ho s hs => ar30Px8_inv h ho (by omega) (by omega) s hs) (by omega) h0
  obtain ⟨n2, st2, b1, b2, b3, b4, b5⟩ := rowsLoop_inv (P := fun off n s => H30Inv P t o w b (rowFn src off) n s)
    (margin := 4) (step := 4) (size := b.size) (jx := 0 + n1 * 8) (f := ar30Px4 t o src w b) (by omega) (by omega)
    (fun m hm off ho s hs => ar30Px4_inv h ho (by omega) (by omega) (by omega) s hs) (by omega) a2
  obtain ⟨n3, st3, d1, d2, d3, d4, d5⟩ := rowsLoop_inv (P := fun off n s => H30Inv P t o w b (rowFn src off) n s)
    (margin := 0) (step := 1) (size := b.size) (jx := 0 + n1 * 8 + n2 * 4) (f := ar30Px1 t o src w b) (by omega) (by omega)
    (fun m hm off ho s hs => ar30Px1_inv h ho (by omega) (by omega) s hs) (by omega) b2
  simp only [Option.bind_eq_bind, a1, b1, d1, Option.bind_some]
  congr 1
  refine forall₂_eq d2 ?_
  intro off _ s hs
  rw [show 0 + n1 * 8 + n2 * 4 + n3 * 1 = b.size by omega] at hs
  obtain ⟨m, rfl, hm⟩ := hs
  rw [ar30Store_of]
  apply List.map_congr_left
  intro k _
  refine pxByte_congr (fun c hc => ?_) k
  rw [if_pos (by omega), hm c hc]
  rfl

end PicScale
