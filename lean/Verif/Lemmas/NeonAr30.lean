import Verif.Model.NeonAr30
import Verif.SpecNeonAr30
import Verif.Lemmas.X86Ar30Pass
import Verif.Lemmas.NeonU16Pass

/-! The NEON handlers for packed 10-bit pixels as pure functions of the components of the window. -/

namespace PicScale

open Finset Spec

/-! ### words -/

theorem vldWords_eq {src : List ℕ} {off n : ℕ} (h : off + 4 * n ≤ src.length) :
    vldWords src off n = some ((List.range n).map fun i => word4 fun k => src.getD (off + 4 * i + k) 0 % 256) := by
  unfold vldWords
  rw [loadBytes_eq h]
  simp only [Option.bind_eq_bind, Option.bind_some]
  congr 1
  apply List.map_congr_left
  intro i hi
  have hi : i < n := by simpa using hi
  have e : ∀ k, k < 4 → ((List.range (4 * n)).map fun c => src.getD (off + c) 0 % 256).getD (4 * i + k) 0 =
      src.getD (off + 4 * i + k) 0 % 256 := by
    intro k hk
    rw [List.getD_eq_getElem?_getD, List.getElem?_map, List.getElem?_range (by omega)]
    simp only [Option.map_some, Option.getD_some, Nat.add_assoc]
  have e0 := e 0 (by omega)
  rw [Nat.add_zero] at e0
  rw [e0, e 1 (by omega), e 2 (by omega), e 3 (by omega)]
  rfl

theorem vorder_eq (o : Ar30Order) (v : ℕ) : vorder o v = ord30 o v := by cases o <;> rfl

theorem vfield_raw (t : Rgb30) (o : Ar30Order) (p : ℕ → ℕ) {c : ℕ} (hc : c < 3) :
    vfield t o c (word4 p) = raw30 (fmtLE t o) p c := by
  rw [raw30_word t o p hc]
  have h3 : c = 0 ∨ c = 1 ∨ c = 2 := by omega
  unfold vfield sh30
  rw [vorder_eq]
  cases t <;> rcases h3 with rfl | rfl | rfl <;> simp [and_3ff, Nat.shiftRight_eq_div_pow]

theorem vld1Px_raw (t : Rgb30) (o : Ar30Order) (p : ℕ → ℕ) :
    vld1Px t o (word4 p) = [raw30 (fmtLE t o) p 0, raw30 (fmtLE t o) p 1, raw30 (fmtLE t o) p 2, 1023] := rfl

theorem bytes_of_word (t : Rgb30) (o : Ar30Order) {q : ℕ → ℕ} (hq : q 0 < 65536) {v : ℕ}
    (hv : v = ord30 o (orWord t (q 0) (q 1) (q 2))) : toNeBytes .little v = (List.range 4).map (pxByte t o q) := by
  rw [← pxByte_list, toNe_list, toNe_list, hv]
  obtain ⟨a, b, c, d⟩ := bytes_congr (orWord_pack t o (q 1) (q 2) hq)
  rw [a, b, c, d]

theorem vzipWord_bytes (t : Rgb30) (o : Ar30Order) {q : ℕ → ℕ} (hq : q 0 < 65536) :
    toNeBytes .little (vzipWord t o (q 0) (q 1) (q 2)) = (List.range 4).map (pxByte t o q) := by
  apply bytes_of_word t o hq
  unfold vzipWord
  rw [vorder_eq]
  cases t <;> rfl

theorem vextract_bytes (t : Rgb30) (o : Ar30Order) (lanes : List ℕ) :
    vextract t o lanes = (List.range 4).map (pxByte t o fun c => lanes.getD c 0 % 1024) := by
  unfold vextract
  simp only [and_3ff]
  apply bytes_of_word t o (show (fun c => lanes.getD c 0 % 1024) 0 < 65536 by dsimp only; omega)
  rw [vorder_eq]
  cases t
  · rfl
  · unfold orWord
    dsimp only
    congr 1
    rw [Nat.or_assoc, Nat.or_assoc, Nat.or_assoc, Nat.or_assoc]
    congr 1
    rw [Nat.or_comm (_ * 2 ^ 12) (_ * 2 ^ 22), Nat.or_comm (_ * 2 ^ 2), Nat.or_assoc]

/-! ### the taps of one component -/

/-- Accumulator after `n` taps in order. -/
def tapsF (tap : ℤ → ℕ → ℤ → ℤ) (init : ℤ) (w : ℕ → ℤ) (p : ℕ → ℕ) : ℕ → ℤ
  | 0 => init
  | n + 1 => tap (tapsF tap init w p n) (p n) (w n)

theorem tapsF_congr {tap : ℤ → ℕ → ℤ → ℤ} {init : ℤ} {w w' : ℕ → ℤ} {p p' : ℕ → ℕ} {n : ℕ}
    (hw : ∀ k, k < n → w k = w' k) (hp : ∀ k, k < n → p k = p' k) :
    tapsF tap init w p n = tapsF tap init w' p' n := by
  induction n with
  | zero => rfl
  | succ n ih =>
    unfold tapsF
    rw [ih (fun k hk => hw k (by omega)) (fun k hk => hp k (by omega)), hw n (by omega), hp n (by omega)]

/-- One lane of `ar30N8`. -/
def n8 (w : ℕ → ℤ) (p : ℕ → ℕ) (j : ℕ) (a : ℤ) : ℤ :=
  tapQ (tapQ (tapQ (tapQ (tapQ (tapQ (tapQ (tapQ a (p j) (w j)) (p (j + 5)) (w (j + 1))) (p (j + 1)) (w (j + 2)))
    (p (j + 5)) (w (j + 3))) (p (j + 2)) (w (j + 4))) (p (j + 6)) (w (j + 5))) (p (j + 3)) (w (j + 6))) (p (j + 7)) (w (j + 7))
/-- One lane of `ar30N4`. -/
def n4 (w : ℕ → ℤ) (p : ℕ → ℕ) (j : ℕ) (a : ℤ) : ℤ :=
  tapQ (tapQ (tapQ (tapQ a (p j) (w j)) (p (j + 3)) (w (j + 1))) (p (j + 2)) (w (j + 2))) (p (j + 3)) (w (j + 3))
/-- One lane of `ar30N1`. -/
def n1 (w : ℕ → ℤ) (p : ℕ → ℕ) (j : ℕ) (a : ℤ) : ℤ := tapQ a (p j) (w j)
/-- One lane of `ar30R8`. -/
def r8 (w : ℕ → ℤ) (p : ℕ → ℕ) (j : ℕ) (a : ℤ) : ℤ :=
  i16 (i16 (a + tapRdm 4 (tapRdm 4 (tapRdm 4 (mulRdm 4 (p (j + 1)) (w (j + 2))) (p j) (w j)) (p (j + 3)) (w (j + 6)))
      (p (j + 2)) (w (j + 4))) +
    tapRdm 4 (tapRdm 4 (tapRdm 4 (mulRdm 4 (p (j + 5)) (w (j + 3))) (p (j + 4)) (w (j + 1))) (p (j + 7)) (w (j + 7)))
      (p (j + 6)) (w (j + 5)))
/-- One lane of `ar30R4`. -/
def r4 (w : ℕ → ℤ) (p : ℕ → ℕ) (j : ℕ) (a : ℤ) : ℤ :=
  i16 (i16 (a + tapRdm 4 (mulRdm 4 (p (j + 2)) (w (j + 2))) (p j) (w j)) +
    tapRdm 4 (mulRdm 4 (p (j + 3)) (w (j + 3))) (p (j + 1)) (w (j + 1)))
/-- One lane of `ar30R1`. -/
def r1 (w : ℕ → ℤ) (p : ℕ → ℕ) (j : ℕ) (a : ℤ) : ℤ := tapRdm 4 a (p j) (w j)

/-- Groups of eight, of four, and single pixels. -/
def groups (g8 g4 g1 : ℕ → ℤ → ℤ) (n : ℕ) (a : ℤ) : ℤ :=
  pureLoop 0 1 n g1 n (loopEnd 4 4 n n (loopEnd 8 8 n n 0))
    (pureLoop 4 4 n g4 n (loopEnd 8 8 n n 0) (pureLoop 8 8 n g8 n 0 a))

/-- One component of a pixel written by `ar30Neon`. -/
def rowN (w : ℕ → ℤ) (p : ℕ → ℕ) (n : ℕ) : ℕ := narrowQ 10 (groups (n8 w p) (n4 w p) (n1 w p) n NEON16_ROUNDING)
/-- One component of a pixel written by `ar30Rdm`. -/
def rowR (w : ℕ → ℤ) (p : ℕ → ℕ) (n : ℕ) : ℕ := narrowRdm (groups (r8 w p) (r4 w p) (r1 w p) n 8)

theorem pureLoop_rel {σ τ : Type} {R : σ → τ → Prop} {margin step size : ℕ} {g : ℕ → σ → σ} {G : ℕ → τ → τ}
    (h : ∀ j s u, j + margin < size → R s u → R (g j s) (G j u)) : ∀ fuel jx s u, R s u →
      R (pureLoop margin step size g fuel jx s) (pureLoop margin step size G fuel jx u) := by
  intro fuel
  induction fuel with
  | zero => intro jx s u h0; exact h0
  | succ fuel ih =>
    intro jx s u h0
    unfold pureLoop
    split_ifs with hc
    · exact ih _ _ _ (h _ _ _ hc h0)
    · exact h0

/-! ### rows -/

/-- Four lanes, the first three of which are given. -/
def Lanes3 (s : List ℤ) (m : ℕ → ℤ) : Prop := ∃ v, s = [m 0, m 1, m 2, v]
/-- A pixel as four lanes. -/
def px4 (p : ℕ → ℕ) (v : ℕ) : List ℕ := [p 0, p 1, p 2, v]

theorem px4_congr {p p' : ℕ → ℕ} (h : ∀ c, c < 3 → p c = p' c) (v : ℕ) : px4 p v = px4 p' v := by
  unfold px4; rw [h 0 (by omega), h 1 (by omega), h 2 (by omega)]

theorem Lanes3.tap {s : List ℤ} {m : ℕ → ℤ} (h : Lanes3 s m) (tap : ℤ → ℕ → ℤ → ℤ) (p : ℕ → ℕ) (v : ℕ) (w : ℤ) :
    Lanes3 (vtapLane tap s (px4 p v) w) fun c => tap (m c) (p c) w := by
  obtain ⟨u, rfl⟩ := h
  exact ⟨_, rfl⟩

/-- The word of pixel `j` of the window. -/
def wordAt (b : Bounds) (f : ℕ → ℕ) (j : ℕ) : ℕ := word4 fun k => f ((b.start + j) * 4 + k) % 256

theorem vfield_tap (t : Rgb30) (o : Ar30Order) (b : Bounds) (f : ℕ → ℕ) (j : ℕ) {c : ℕ} (hc : c < 3) :
    vfield t o c (wordAt b f j) = tapRaw t o b f c j := vfield_raw t o _ hc

theorem px4_tap (t : Rgb30) (o : Ar30Order) (b : Bounds) (f : ℕ → ℕ) (j v : ℕ) :
    px4 (fun c => vfield t o c (wordAt b f j)) v = px4 (fun c => tapRaw t o b f c j) v :=
  px4_congr (fun _ hc => vfield_tap t o b f j hc) v

theorem vseparate8_of (t : Rgb30) (o : Ar30Order) (W : ℕ → ℕ) : vseparate t o ((List.range 8).map W) =
    (px4 (fun c => vfield t o c (W 0)) 3 ++ px4 (fun c => vfield t o c (W 4)) 3,
     px4 (fun c => vfield t o c (W 1)) 3 ++ px4 (fun c => vfield t o c (W 5)) 3,
     px4 (fun c => vfield t o c (W 2)) 3 ++ px4 (fun c => vfield t o c (W 6)) 3,
     px4 (fun c => vfield t o c (W 3)) 3 ++ px4 (fun c => vfield t o c (W 7)) 3) := by
  simp [vseparate, vtrn16, vtrn32, vunzip3, px4, List.range, List.range.loop, List.replicate]

theorem vseparate4_of (t : Rgb30) (o : Ar30Order) (W : ℕ → ℕ) : vseparate4 t o ((List.range 4).map W) =
    (px4 (fun c => vfield t o c (W 0)) 3 ++ px4 (fun c => vfield t o c (W 1)) 3,
     px4 (fun c => vfield t o c (W 2)) 3 ++ px4 (fun c => vfield t o c (W 3)) 3) := by
  simp [vseparate4, vseparate, vtrn16, vtrn32, vunzip3, px4, List.range, List.range.loop, List.replicate]

theorem take_px4 (p p' : ℕ → ℕ) (v v' : ℕ) : (px4 p v ++ px4 p' v').take 4 = px4 p v := rfl
theorem drop_px4 (p p' : ℕ → ℕ) (v v' : ℕ) : (px4 p v ++ px4 p' v').drop 4 = px4 p' v' := rfl

section
variable (t : Rgb30) (o : Ar30Order) (w : List ℤ) (b : Bounds) (f : ℕ → ℕ) (j : ℕ) {s : List ℤ} {m : ℕ → ℤ}

/-- The words of `n` pixels. -/
def winWords (b : Bounds) (f : ℕ → ℕ) (j n : ℕ) : List ℕ := (List.range n).map fun i => wordAt b f (j + i)

theorem ar30N8_lanes (h : Lanes3 s m) : Lanes3 (ar30N8 t o (wRange w j 8) (winWords b f j 8) s)
    fun c => n8 (fun k => w.getD k 0) (tapRaw t o b f c) j (m c) := by
  unfold ar30N8 winWords
  simp only [vseparate8_of, take_px4, drop_px4, px4_tap, wRange_getD w j 8 _ (show 0 < 8 by omega), wRange_getD w j 8 _ (show 1 < 8 by omega),
    wRange_getD w j 8 _ (show 2 < 8 by omega), wRange_getD w j 8 _ (show 3 < 8 by omega),
    wRange_getD w j 8 _ (show 4 < 8 by omega), wRange_getD w j 8 _ (show 5 < 8 by omega),
    wRange_getD w j 8 _ (show 6 < 8 by omega), wRange_getD w j 8 _ (show 7 < 8 by omega), Nat.add_zero]
  exact (((((((h.tap _ _ _ _).tap _ _ _ _).tap _ _ _ _).tap _ _ _ _).tap _ _ _ _).tap _ _ _ _).tap _ _ _ _).tap _ _ _ _

theorem ar30N4_lanes (h : Lanes3 s m) : Lanes3 (ar30N4 t o (wRange w j 4) (winWords b f j 4) s)
    fun c => n4 (fun k => w.getD k 0) (tapRaw t o b f c) j (m c) := by
  unfold ar30N4 winWords
  simp only [vseparate4_of, take_px4, drop_px4, px4_tap, wRange_getD w j 4 _ (show 0 < 4 by omega), wRange_getD w j 4 _ (show 1 < 4 by omega),
    wRange_getD w j 4 _ (show 2 < 4 by omega), wRange_getD w j 4 _ (show 3 < 4 by omega), Nat.add_zero]
  exact (((h.tap _ _ _ _).tap _ _ _ _).tap _ _ _ _).tap _ _ _ _

theorem one_lanes (tap : ℤ → ℕ → ℤ → ℤ) (h : Lanes3 s m) :
    Lanes3 (vtapLane tap s (vld1Px t o ((winWords b f j 1).getD 0 0)) ((wRange w j 1).getD 0 0))
      fun c => tap (m c) (tapRaw t o b f c j) (w.getD j 0) := by
  rw [wRange_getD w j 1 _ (by omega), Nat.add_zero]
  exact h.tap tap (fun c => tapRaw t o b f c j) 1023 _

theorem ar30R8_lanes (h : Lanes3 s m) : Lanes3 (ar30R8 t o (wRange w j 8) (winWords b f j 8) s)
    fun c => r8 (fun k => w.getD k 0) (tapRaw t o b f c) j (m c) := by
  unfold ar30R8 winWords
  simp only [vseparate8_of, px4_tap, wRange_getD w j 8 _ (show 0 < 8 by omega), wRange_getD w j 8 _ (show 1 < 8 by omega),
    wRange_getD w j 8 _ (show 2 < 8 by omega), wRange_getD w j 8 _ (show 3 < 8 by omega),
    wRange_getD w j 8 _ (show 4 < 8 by omega), wRange_getD w j 8 _ (show 5 < 8 by omega),
    wRange_getD w j 8 _ (show 6 < 8 by omega), wRange_getD w j 8 _ (show 7 < 8 by omega), Nat.add_zero]
  obtain ⟨u, rfl⟩ := h
  exact ⟨_, rfl⟩

theorem ar30R4_lanes (h : Lanes3 s m) : Lanes3 (ar30R4 t o (wRange w j 4) (winWords b f j 4) s)
    fun c => r4 (fun k => w.getD k 0) (tapRaw t o b f c) j (m c) := by
  unfold ar30R4 winWords
  simp only [vseparate4_of, px4_tap, wRange_getD w j 4 _ (show 0 < 4 by omega), wRange_getD w j 4 _ (show 1 < 4 by omega),
    wRange_getD w j 4 _ (show 2 < 4 by omega), wRange_getD w j 4 _ (show 3 < 4 by omega), Nat.add_zero]
  obtain ⟨u, rfl⟩ := h
  exact ⟨_, rfl⟩

end

theorem ar30Load_pure {n : ℕ} {core : List ℤ → List ℕ → List ℤ → List ℤ} {src : List ℕ} {offs : List ℕ} {w : List ℤ}
    {b : Bounds} (hp : HPre 4 src offs w b) {off : ℕ} (ho : off ∈ offs) {jx : ℕ} (h : jx + n ≤ b.size) (s : List ℤ) :
    ar30Load n core src w b jx off s = some (core (wRange w jx n) (winWords b (rowFn src off) jx n) s) := by
  have hin := hp.inside off ho
  have hw := hp.weights
  have e : (b.start + b.size) * 4 = b.start * 4 + b.size * 4 := by ring
  have e2 : (b.start + jx) * 4 = b.start * 4 + jx * 4 := by ring
  unfold ar30Load
  rw [loadW16_eq (by omega), vldWords_eq (by omega)]
  simp only [Option.bind_eq_bind, Option.bind_some]
  congr 2
  unfold winWords wordAt rowFn
  apply List.map_congr_left
  intro i _
  congr 1
  funext k
  congr 2
  ring

/-- Both row handlers. -/
theorem rows30_ok {src offs : List ℕ} {w : List ℤ} {b : Bounds} (hp : HPre 4 src offs w b)
    {t : Rgb30} {o : Ar30Order} {c8 c4 c1 : List ℤ → List ℕ → List ℤ → List ℤ} {i0 : List ℤ} {a0 : ℤ}
    {g8 g4 g1 : (ℕ → ℤ) → (ℕ → ℕ) → ℕ → ℤ → ℤ} {fin : ℤ → ℕ} (h0 : Lanes3 i0 fun _ => a0) (hf : ∀ v, fin v ≤ 1023)
    (h8 : ∀ f j s m, Lanes3 s m → Lanes3 (c8 (wRange w j 8) (winWords b f j 8) s)
      fun c => g8 (fun k => w.getD k 0) (tapRaw t o b f c) j (m c))
    (h4 : ∀ f j s m, Lanes3 s m → Lanes3 (c4 (wRange w j 4) (winWords b f j 4) s)
      fun c => g4 (fun k => w.getD k 0) (tapRaw t o b f c) j (m c))
    (h1 : ∀ f j s m, Lanes3 s m → Lanes3 (c1 (wRange w j 1) (winWords b f j 1) s)
      fun c => g1 (fun k => w.getD k 0) (tapRaw t o b f c) j (m c)) :
    (do
      let st := offs.map fun _ => i0
      let (jx, st) ← rowsLoop 8 8 b.size offs (ar30Load 8 c8 src w b) 0 st
      let (jx, st) ← rowsLoop 4 4 b.size offs (ar30Load 4 c4 src w b) jx st
      let (_, st) ← rowsLoop 0 1 b.size offs (ar30Load 1 c1 src w b) jx st
      some (st.map fun acc => vextract t o (acc.map fin))) =
    some (offs.map fun off => (List.range 4).map (pxByte t o fun c =>
      fin (groups (g8 (fun k => w.getD k 0) (tapRaw t o b (rowFn src off) c)) (g4 (fun k => w.getD k 0) (tapRaw t o b (rowFn src off) c))
        (g1 (fun k => w.getD k 0) (tapRaw t o b (rowFn src off) c)) b.size a0))) := by
  dsimp only
  rw [rowsLoop_pure (f := ar30Load 8 c8 src w b)
    (g := fun off jx s => c8 (wRange w jx 8) (winWords b (rowFn src off) jx 8) s)
    (fun jx h o ho s => ar30Load_pure hp ho (by omega) s)]
  simp only [Option.bind_eq_bind, Option.bind_some]
  rw [rowsLoop_pure (f := ar30Load 4 c4 src w b)
    (g := fun off jx s => c4 (wRange w jx 4) (winWords b (rowFn src off) jx 4) s)
    (fun jx h o ho s => ar30Load_pure hp ho (by omega) s)]
  simp only [Option.bind_some]
  rw [rowsLoop_pure (f := ar30Load 1 c1 src w b)
    (g := fun off jx s => c1 (wRange w jx 1) (winWords b (rowFn src off) jx 1) s)
    (fun jx h o ho s => ar30Load_pure hp ho (by omega) s)]
  simp only [Option.bind_some, List.map_map]
  congr 1
  apply List.map_congr_left
  intro off _
  simp only [Function.comp_apply]
  rw [vextract_bytes]
  have a8 := pureLoop_rel (R := Lanes3) (margin := 8) (step := 8) (size := b.size)
    (G := fun j (m : ℕ → ℤ) c => g8 (fun k => w.getD k 0) (tapRaw t o b (rowFn src off) c) j (m c))
    (fun j s m _ h => h8 (rowFn src off) j s m h) b.size 0 _ _ h0
  have a4 := pureLoop_rel (R := Lanes3) (margin := 4) (step := 4) (size := b.size)
    (G := fun j (m : ℕ → ℤ) c => g4 (fun k => w.getD k 0) (tapRaw t o b (rowFn src off) c) j (m c))
    (fun j s m _ h => h4 (rowFn src off) j s m h) b.size (loopEnd 8 8 b.size b.size 0) _ _ a8
  have a1 := pureLoop_rel (R := Lanes3) (margin := 0) (step := 1) (size := b.size)
    (G := fun j (m : ℕ → ℤ) c => g1 (fun k => w.getD k 0) (tapRaw t o b (rowFn src off) c) j (m c))
    (fun j s m _ h => h1 (rowFn src off) j s m h) b.size (loopEnd 4 4 b.size b.size (loopEnd 8 8 b.size b.size 0)) _ _ a4
  obtain ⟨v, e⟩ := a1
  rw [e]
  apply List.map_congr_left
  intro k _
  have hom : ∀ (margin step : ℕ) (G : ℕ → ℕ → ℤ → ℤ) (c fuel jx : ℕ) (m : ℕ → ℤ),
      pureLoop margin step b.size (fun j (m : ℕ → ℤ) c => G c j (m c)) fuel jx m c =
        pureLoop margin step b.size (G c) fuel jx (m c) := fun margin step G c fuel jx m =>
    pureLoop_hom (fun m : ℕ → ℤ => m c) (g := G c) (G := fun j (m : ℕ → ℤ) c => G c j (m c)) (fun _ _ => rfl) fuel jx m
  refine pxByte_congr (fun c hc => ?_) k
  have h3 : c = 0 ∨ c = 1 ∨ c = 2 := by omega
  have hm : ∀ v, fin v % 1024 = fin v := fun v => Nat.mod_eq_of_lt (by have := hf v; omega)
  unfold groups
  rcases h3 with rfl | rfl | rfl
  · show fin _ % 1024 = _
    rw [hm]
    refine congrArg fin ?_
    rw [hom 0 1, hom 4 4, hom 8 8]
  · show fin _ % 1024 = _
    rw [hm]
    refine congrArg fin ?_
    rw [hom 0 1, hom 4 4, hom 8 8]
  · show fin _ % 1024 = _
    rw [hm]
    refine congrArg fin ?_
    rw [hom 0 1, hom 4 4, hom 8 8]

theorem narrowRdm_le (v : ℤ) : narrowRdm v ≤ 1023 := by unfold narrowRdm; omega
theorem narrowRdm5_le (v : ℤ) : narrowRdm5 v ≤ 1023 := by unfold narrowRdm5; omega

theorem ar30Neon_ok (t : Rgb30) (o : Ar30Order) {src offs : List ℕ} {w : List ℤ} {b : Bounds} (hp : HPre 4 src offs w b) :
    ar30Neon t o src offs w b = some (offs.map fun off => (List.range 4).map (pxByte t o fun c =>
      rowN (fun k => w.getD k 0) (tapRaw t o b (rowFn src off) c) b.size)) :=
  rows30_ok hp (c8 := ar30N8 t o) (c4 := ar30N4 t o) (c1 := ar30N1 t o) (g8 := n8) (g4 := n4) (g1 := n1)
    (i0 := List.replicate 4 NEON16_ROUNDING) ⟨_, rfl⟩
    (fun v => narrowQ_le 10 v) (fun f j _ _ h => ar30N8_lanes t o w b f j h) (fun f j _ _ h => ar30N4_lanes t o w b f j h)
    (fun f j _ _ h => one_lanes t o w b f j tapQ h)

theorem ar30Rdm_ok (t : Rgb30) (o : Ar30Order) {src offs : List ℕ} {w : List ℤ} {b : Bounds} (hp : HPre 4 src offs w b) :
    ar30Rdm t o src offs w b = some (offs.map fun off => (List.range 4).map (pxByte t o fun c =>
      rowR (fun k => w.getD k 0) (tapRaw t o b (rowFn src off) c) b.size)) :=
  rows30_ok hp (c8 := ar30R8 t o) (c4 := ar30R4 t o) (c1 := ar30R1 t o) (g8 := r8) (g4 := r4) (g1 := r1)
    (i0 := [8, 8, 8, 2048]) ⟨_, rfl⟩
    narrowRdm_le (fun f j _ _ h => ar30R8_lanes t o w b f j h) (fun f j _ _ h => ar30R4_lanes t o w b f j h)
    (fun f j _ _ h => one_lanes t o w b f j (tapRdm 4) h)

end PicScale
