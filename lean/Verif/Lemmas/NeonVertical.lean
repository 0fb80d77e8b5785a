import Verif.Lemmas.NeonValues

/-! The NEON vertical handlers: in bounds, and which taps each position gets. -/

namespace PicScale

open Finset Spec

/-- `n` taps one after the other. -/
def tapFold (tap : ℤ → ℕ → ℤ → ℤ) (init : ℤ) (W : ℕ → ℤ) (P : ℕ → ℕ) : ℕ → ℤ
  | 0 => init
  | n + 1 => tap (tapFold tap init W P n) (P n) (W n)

theorem tapFold_congr {tap : ℤ → ℕ → ℤ → ℤ} {init : ℤ} {W W' : ℕ → ℤ} {P P' : ℕ → ℕ} {n : ℕ}
    (h : ∀ k, k < n → W k = W' k ∧ P k = P' k) : tapFold tap init W P n = tapFold tap init W' P' n := by
  induction n with
  | zero => rfl
  | succ n ih =>
    unfold tapFold
    rw [ih fun k hk => h k (by omega), (h n (by omega)).1, (h n (by omega)).2]

/-- The source byte of row `k` of the window at position `p`. -/
def colb (src : List ℕ) (stride : ℕ) (b : Bounds) (p k : ℕ) : ℕ := src.getD (stride * (b.start + k) + p) 0 % 256

/-- The sample at position `p` with weights `W`. -/
def neonVal (tap : ℤ → ℕ → ℤ → ℤ) (init : ℤ) (fin : ℤ → ℕ) (src : List ℕ) (stride : ℕ) (b : Bounds) (W : ℕ → ℤ)
    (p : ℕ) : ℕ := fin (tapFold tap init W (colb src stride b p) b.size)

/-- Accumulators of a chunk after `n` rows. -/
def chunkState (tap : ℤ → ℕ → ℤ → ℤ) (init : ℤ) (B : ℕ) (src : List ℕ) (stride : ℕ) (b : Bounds) (W : ℕ → ℤ)
    (x n : ℕ) : List ℤ :=
  (List.range B).map fun c => tapFold tap init W (colb src stride b (x + c)) n

section
variable {tap : ℤ → ℕ → ℤ → ℤ} {init : ℤ} {fin : ℤ → ℕ} {B : ℕ} {src : List ℕ} {stride : ℕ} {w : List ℤ}
  {b : Bounds} {total x j : ℕ}

theorem chunkState_init (W : ℕ → ℤ) : List.replicate B init = chunkState tap init B src stride b W x 0 := by
  unfold chunkState
  symm
  refine List.eq_replicate_iff.mpr ⟨by simp, ?_⟩
  intro y hy
  obtain ⟨r, _, rfl⟩ := List.mem_map.mp hy
  rfl

theorem rowBytes (h : VPre src stride w b total) (hx : x + B ≤ total) (hj : j < b.size) :
    loadBytes src (stride * (b.start + j) + x) B = some ((List.range B).map fun c => colb src stride b (x + c) j) := by
  have := h.row (k := j) hj
  rw [loadBytes_eq (by omega)]
  simp only [colb, Nat.add_assoc]

theorem vtapLane_map (tap : ℤ → ℕ → ℤ → ℤ) (l : List ℕ) (f : ℕ → ℤ) (g : ℕ → ℕ) (v : ℤ) :
    vtapLane tap (l.map f) (l.map g) v = l.map fun c => tap (f c) (g c) v := by
  unfold vtapLane
  rw [List.zipWith_map]
  induction l with
  | nil => rfl
  | cons a l ih => rw [List.zipWith_cons_cons, List.map_cons, ih]

theorem neonRow_state (h : VPre src stride w b total) (hx : x + B ≤ total) (hj : j < b.size) {W : ℕ → ℤ} {v : ℤ}
    (hW : W j = v) :
    neonRow tap B b src stride x j v (chunkState tap init B src stride b W x j) =
      some (chunkState tap init B src stride b W x (j + 1)) := by
  unfold neonRow
  rw [rowBytes h hx hj]
  simp only [Option.bind_eq_bind, Option.bind_some]
  unfold chunkState
  rw [vtapLane_map, ← hW]
  rfl

theorem neonStep_state (h : VPre src stride w b total) (hx : x + B ≤ total) (hj : j < b.size) {W : ℕ → ℤ}
    (hW : W j = w.getD j 0) :
    neonStep tap B b src stride w x j (chunkState tap init B src stride b W x j) =
      some (chunkState tap init B src stride b W x (j + 1)) := by
  unfold neonStep
  rw [h.get hj]
  exact neonRow_state h hx hj hW

theorem unrolled_state (h : VPre src stride w b total) (hx : x + B ≤ total) :
    unrolled24 b.size (neonStep tap B b src stride w x) (neonStep tap B b src stride w x) (List.replicate B init) =
      some (chunkState tap init B src stride b (fun k => w.getD k 0) x b.size) := by
  rw [chunkState_init (tap := tap) (src := src) (stride := stride) (b := b) (x := x) fun k => w.getD k 0]
  exact unrolled_eq (inv := chunkState tap init B src stride b (fun k => w.getD k 0) x)
    (fun j hj => neonStep_state h hx hj rfl) (fun j hj => neonStep_state h hx hj rfl)

theorem chunkState_fin (W : ℕ → ℤ) :
    (chunkState tap init B src stride b W x b.size).map fin =
      (List.range B).map fun c => neonVal tap init fin src stride b W (x + c) := by
  unfold chunkState neonVal
  rw [List.map_map]
  rfl

theorem neonChunk_ok (h : VPre src stride w b total) :
    BlockOK total B (neonChunk tap init fin B b src stride w)
      (neonVal tap init fin src stride b fun k => w.getD k 0) := by
  intro x dst hl hx
  obtain ⟨r, a⟩ := write_block (B := B) (x := x) (total := total)
    (val := neonVal tap init fin src stride b fun k => w.getD k 0) dst hl hx
  refine ⟨r, ?_, a.2⟩
  unfold neonChunk
  dsimp only
  rw [unrolled_state h hx]
  simp only [Option.bind_eq_bind, Option.bind_some]
  rw [chunkState_fin]
  exact a.1

end

/-- The weights of the 8-sample chunk of the 32-bit handler, lane `c`. -/
def chunk8W (w : List ℤ) (size c k : ℕ) : ℤ := if size = 3 ∧ k = 2 ∧ 4 ≤ c then w.getD 1 0 else w.getD k 0

theorem neonChunk8_at {D : Bool} {src : List ℕ} {stride : ℕ} {w : List ℤ} {b : Bounds} {total x : ℕ}
    (h : VPre src stride w b total) (hx : x + 8 ≤ total) (dst : List ℕ) :
    neonChunk8 D b src stride w x dst = writeAt? dst x ((List.range 8).map fun c =>
      neonVal (tapX D) (neonRnd D) (narrow32 D) src stride b (chunk8W w b.size c) (x + c)) := by
  unfold neonChunk8
  dsimp only
  by_cases h3 : b.size = 3
  · rw [if_pos h3]
    have hw := h.weights
    rw [chunkState_init (tap := tapX D) (src := src) (stride := stride) (b := b) (x := x) fun k => w.getD k 0,
      neonStep_state h hx (by omega) rfl]
    simp only [Option.bind_eq_bind, Option.bind_some]
    rw [neonStep_state h hx (by omega) rfl]
    simp only [Option.bind_some]
    rw [slice?_eq_some (by omega) (by omega), slice_eq_map_range 0 (by omega), rowBytes h hx (by omega)]
    simp only [Option.bind_some]
    congr 1
    unfold neonVal
    rw [h3]
    rfl
  · rw [if_neg h3, unrolled_state h hx]
    simp only [Option.bind_eq_bind, Option.bind_some]
    rw [chunkState_fin]
    congr 1
    apply List.map_congr_left
    intro c _
    unfold neonVal
    congr 1
    apply tapFold_congr
    intro k _
    refine ⟨?_, rfl⟩
    unfold chunk8W
    rw [if_neg (by omega)]

/-- The weights of the 16-sample chunk of the `rdm` handler. -/
def chunk16W (w : List ℤ) (size k : ℕ) : ℤ := if size = 4 ∧ k = 3 then w.getD 2 0 else w.getD k 0

theorem neonRdmChunk16_at {src : List ℕ} {stride : ℕ} {w : List ℤ} {b : Bounds} {total x : ℕ}
    (h : VPre src stride w b total) (hx : x + 16 ≤ total) (dst : List ℕ) :
    neonRdmChunk16 b src stride w x dst = writeAt? dst x ((List.range 16).map fun c =>
      neonVal tapR RDM_ROUNDING narrow16 src stride b (chunk16W w b.size) (x + c)) := by
  unfold neonRdmChunk16
  dsimp only
  by_cases h4 : b.size = 4
  · rw [if_pos h4]
    have hw := h.weights
    rw [slice?_eq_some (by omega) (by omega), slice_eq_map_range 0 (by omega)]
    simp only [Option.bind_eq_bind, Option.bind_some]
    have e : ∀ k, k < 3 → chunk16W w b.size k = w.getD k 0 := fun k hk => by
      unfold chunk16W; rw [if_neg (by omega)]
    rw [chunkState_init (tap := tapR) (src := src) (stride := stride) (b := b) (x := x) (chunk16W w b.size),
      neonStep_state h hx (by omega) (e 0 (by omega))]
    simp only [Option.bind_some]
    rw [neonStep_state h hx (by omega) (e 1 (by omega))]
    simp only [Option.bind_some]
    rw [neonStep_state h hx (by omega) (e 2 (by omega))]
    simp only [Option.bind_some]
    rw [neonRow_state h hx (by omega) (by unfold chunk16W; rw [if_pos ⟨h4, rfl⟩]; simp [List.range_succ])]
    simp only [Option.bind_some]
    rw [show 3 + 1 = b.size by omega, chunkState_fin]
  · rw [if_neg h4, unrolled_state h hx]
    simp only [Option.bind_eq_bind, Option.bind_some]
    rw [chunkState_fin]
    congr 1
    apply List.map_congr_left
    intro c _
    unfold neonVal
    congr 1
    apply tapFold_congr
    intro k _
    refine ⟨?_, rfl⟩
    unfold chunk16W
    rw [if_neg (by omega)]

/-- A loop over blocks that runs at most once. -/
theorem whileBlocks_once {α : Type} {margin step total fuel cx : ℕ} {body : ℕ → List α → Option (List α)}
    {dst : List α} (hs : 1 ≤ step) (h2 : total ≤ cx + step + margin) (hf : total ≤ fuel) :
    whileBlocks margin step total body fuel cx dst =
      if cx + margin < total then (body cx dst).map fun d => (cx + step, d) else some (cx, dst) := by
  match fuel with
  | 0 => unfold whileBlocks; rw [if_neg (by omega)]
  | fuel + 1 =>
    unfold whileBlocks
    by_cases h : cx + margin < total
    · rw [if_pos h, if_pos h]
      have e : ∀ fuel d, whileBlocks margin step total body fuel (cx + step) d = some (cx + step, d) := by
        intro fuel d
        match fuel with
        | 0 => rfl
        | fuel + 1 => unfold whileBlocks; rw [if_neg (by omega)]
      simp only [Option.bind_eq_bind, e]
      cases body cx dst <;> rfl
    · rw [if_neg h, if_neg h]

/-- The weights the 32-bit vertical handler uses at position `p` of a row of `T` samples. -/
def fullW (w : List ℤ) (size T p k : ℕ) : ℤ :=
  if size = 3 ∧ k = 2 ∧ 8 ≤ T % 16 ∧ T / 16 * 16 + 4 ≤ p ∧ p < T / 16 * 16 + 8 then w.getD 1 0 else w.getD k 0

theorem neonColumn_spec {D : Bool} {b : Bounds} {src dst : List ℕ} {stride : ℕ} {w : List ℤ}
    (h : VPre src stride w b dst.length) :
    ∃ r, neonColumn D b src dst stride w = some r ∧ r.length = dst.length ∧
      ∀ p, p < dst.length → r[p]? = some (neonVal (tapX D) (neonRnd D) (narrow32 D) src stride b
        (fullW w b.size dst.length p) p) := by
  obtain ⟨T, hT⟩ : ∃ T, dst.length = T := ⟨_, rfl⟩
  rw [hT] at h ⊢
  have ok : ∀ B, BlockOK T B (neonChunk (tapX D) (neonRnd D) (narrow32 D) B b src stride w)
      (neonVal (tapX D) (neonRnd D) (narrow32 D) src stride b fun k => w.getD k 0) := fun B => neonChunk_ok h
  obtain ⟨n1, r1, e1, l1, a1, b1, d1, _, v1⟩ := whileBlocks_from (margin := 63) (step := 64) (by omega) (by omega)
    (ok 64) T 0 dst hT (by omega) (by omega)
  obtain ⟨n2, r2, e2, l2, a2, b2, d2, k2, v2⟩ := whileBlocks_from (margin := 31) (step := 32) (by omega) (by omega)
    (ok 32) T _ r1 l1 a1 (by omega)
  obtain ⟨n3, r3, e3, l3, a3, b3, d3, k3, v3⟩ := whileBlocks_from (margin := 15) (step := 16) (by omega) (by omega)
    (ok 16) T _ r2 l2 a2 (by omega)
  obtain ⟨X, hX⟩ : ∃ X, 0 + n1 * 64 + n2 * 32 + n3 * 16 = X := ⟨_, rfl⟩
  have hX16 : X = T / 16 * 16 := by omega
  rw [hX] at e3 a3 b3 v3
  have pre : ∀ p, p < X → r3[p]? = some (neonVal (tapX D) (neonRnd D) (narrow32 D) src stride b
        (fullW w b.size T p) p) := by
    intro p hp
    have : r3[p]? = some (neonVal (tapX D) (neonRnd D) (narrow32 D) src stride b (fun k => w.getD k 0) p) := by
      by_cases h3 : 0 + n1 * 64 + n2 * 32 ≤ p
      · exact v3 p h3 hp
      rw [k3 p (by omega)]
      by_cases h2 : 0 + n1 * 64 ≤ p
      · exact v2 p h2 (by omega)
      rw [k2 p (by omega)]
      exact v1 p (by omega) (by omega)
    rw [this]
    congr 1
    unfold neonVal
    congr 1
    refine tapFold_congr fun k _ => ⟨?_, rfl⟩
    unfold fullW
    rw [if_neg (by omega)]
  -- the 8-sample chunk
  obtain ⟨r4, e4, l4, v4, c4⟩ : ∃ r4, whileBlocks 7 8 T (neonChunk8 D b src stride w) T X r3 =
      some (X + (T - X) / 8 * 8, r4) ∧ r4.length = T ∧
      (∀ p, p < X + (T - X) / 8 * 8 → r4[p]? = some (neonVal (tapX D) (neonRnd D) (narrow32 D) src stride b
        (fullW w b.size T p) p)) ∧ True := by
    rw [whileBlocks_once (by omega) (by omega) (by omega)]
    by_cases h8 : X + 7 < T
    · rw [if_pos h8, neonChunk8_at h (by omega)]
      obtain ⟨r, a⟩ := write_block (B := 8) (x := X) (total := T)
        (val := fun p => neonVal (tapX D) (neonRnd D) (narrow32 D) src stride b (chunk8W w b.size (p - X)) p)
        r3 l3 (by omega)
      simp only [Nat.add_sub_cancel_left] at a
      rw [a.1]
      refine ⟨r, by rw [show (T - X) / 8 * 8 = 8 by omega]; rfl, a.2.1, fun p hp => ?_, trivial⟩
      by_cases hpX : p < X
      · rw [a.2.2.2 p (by omega), pre p hpX]
      · rw [a.2.2.1 p (by omega) (by omega)]
        congr 1
        unfold neonVal
        congr 1
        refine tapFold_congr fun k _ => ⟨?_, rfl⟩
        unfold chunk8W fullW
        congr 1
        rw [eq_iff_iff]
        omega
    · rw [if_neg h8]
      refine ⟨r3, by rw [show (T - X) / 8 * 8 = 0 by omega]; rfl, l3, fun p hp => pre p (by omega), trivial⟩
  obtain ⟨n5, r5, e5, l5, a5, b5, d5, k5, v5⟩ := whileBlocks_from (margin := 0) (step := 1) (by omega) (by omega)
    (ok 1) T (X + (T - X) / 8 * 8) r4 l4 (by omega) (by omega)
  refine ⟨r5, ?_, l5, fun p hp => ?_⟩
  · unfold neonColumn
    dsimp only
    rw [hT, e1]
    simp only [Option.bind_eq_bind, Option.bind_some]
    rw [e2]
    simp only [Option.bind_some]
    rw [e3]
    simp only [Option.bind_some]
    rw [e4]
    simp only [Option.bind_some]
    rw [e5]
    rfl
  · by_cases h5 : p < X + (T - X) / 8 * 8
    · rw [k5 p h5, v4 p h5]
    · rw [v5 p (by omega) (by omega)]
      congr 1
      unfold neonVal
      congr 1
      refine tapFold_congr fun k _ => ⟨?_, rfl⟩
      unfold fullW
      rw [if_neg (by omega)]

/-- The weights the `rdm` vertical handler uses at position `p` of a row of `T` samples. -/
def rdmW (w : List ℤ) (size T p k : ℕ) : ℤ :=
  if size = 4 ∧ k = 3 ∧ 16 ≤ T % 32 ∧ T / 32 * 32 ≤ p ∧ p < T / 32 * 32 + 16 then w.getD 2 0 else w.getD k 0

theorem neonRdmColumn_spec {b : Bounds} {src dst : List ℕ} {stride : ℕ} {w : List ℤ}
    (h : VPre src stride w b dst.length) :
    ∃ r, neonRdmColumn b src dst stride w = some r ∧ r.length = dst.length ∧
      ∀ p, p < dst.length → r[p]? = some (neonVal tapR RDM_ROUNDING narrow16 src stride b
        (rdmW w b.size dst.length p) p) := by
  obtain ⟨T, hT⟩ : ∃ T, dst.length = T := ⟨_, rfl⟩
  rw [hT] at h ⊢
  have ok : ∀ B, BlockOK T B (neonChunk tapR RDM_ROUNDING narrow16 B b src stride w)
      (neonVal tapR RDM_ROUNDING narrow16 src stride b fun k => w.getD k 0) := fun B => neonChunk_ok h
  obtain ⟨n1, r1, e1, l1, a1, b1, d1, _, v1⟩ := whileBlocks_from (margin := 63) (step := 64) (by omega) (by omega)
    (ok 64) T 0 dst hT (by omega) (by omega)
  obtain ⟨n2, r2, e2, l2, a2, b2, d2, k2, v2⟩ := whileBlocks_from (margin := 31) (step := 32) (by omega) (by omega)
    (ok 32) T _ r1 l1 a1 (by omega)
  obtain ⟨X, hX⟩ : ∃ X, 0 + n1 * 64 + n2 * 32 = X := ⟨_, rfl⟩
  have hX32 : X = T / 32 * 32 := by omega
  rw [hX] at e2 a2 b2 v2
  have pre : ∀ p, p < X → r2[p]? = some (neonVal tapR RDM_ROUNDING narrow16 src stride b
        (rdmW w b.size T p) p) := by
    intro p hp
    have : r2[p]? = some (neonVal tapR RDM_ROUNDING narrow16 src stride b (fun k => w.getD k 0) p) := by
      by_cases h2 : 0 + n1 * 64 ≤ p
      · exact v2 p h2 (by omega)
      rw [k2 p (by omega)]
      exact v1 p (by omega) (by omega)
    rw [this]
    congr 1
    unfold neonVal
    congr 1
    refine tapFold_congr fun k _ => ⟨?_, rfl⟩
    unfold rdmW
    rw [if_neg (by omega)]
  obtain ⟨r3, e3, l3, v3⟩ : ∃ r3, whileBlocks 15 16 T (neonRdmChunk16 b src stride w) T X r2 =
      some (X + (T - X) / 16 * 16, r3) ∧ r3.length = T ∧
      (∀ p, p < X + (T - X) / 16 * 16 → r3[p]? = some (neonVal tapR RDM_ROUNDING narrow16 src stride b
        (rdmW w b.size T p) p)) := by
    rw [whileBlocks_once (by omega) (by omega) (by omega)]
    by_cases h8 : X + 15 < T
    · rw [if_pos h8, neonRdmChunk16_at h (by omega)]
      obtain ⟨r, a⟩ := write_block (B := 16) (x := X) (total := T)
        (val := fun p => neonVal tapR RDM_ROUNDING narrow16 src stride b (chunk16W w b.size) p)
        r2 l2 (by omega)
      rw [a.1]
      refine ⟨r, by rw [show (T - X) / 16 * 16 = 16 by omega]; rfl, a.2.1, fun p hp => ?_⟩
      by_cases hpX : p < X
      · rw [a.2.2.2 p (by omega), pre p hpX]
      · rw [a.2.2.1 p (by omega) (by omega)]
        congr 1
        unfold neonVal
        congr 1
        refine tapFold_congr fun k _ => ⟨?_, rfl⟩
        unfold chunk16W rdmW
        congr 1
        rw [eq_iff_iff]
        omega
    · rw [if_neg h8]
      refine ⟨r2, by rw [show (T - X) / 16 * 16 = 0 by omega]; rfl, l2, fun p hp => pre p (by omega)⟩
  obtain ⟨n4, r4, e4, l4, a4, b4, d4, k4, v4⟩ := whileBlocks_from (margin := 7) (step := 8) (by omega) (by omega)
    (ok 8) T (X + (T - X) / 16 * 16) r3 l3 (by omega) (by omega)
  obtain ⟨n5, r5, e5, l5, a5, b5, d5, k5, v5⟩ := whileBlocks_from (margin := 0) (step := 1) (by omega) (by omega)
    (ok 1) T (X + (T - X) / 16 * 16 + n4 * 8) r4 l4 (by omega) (by omega)
  refine ⟨r5, ?_, l5, fun p hp => ?_⟩
  · unfold neonRdmColumn
    dsimp only
    rw [hT, e1]
    simp only [Option.bind_eq_bind, Option.bind_some]
    rw [e2]
    simp only [Option.bind_some]
    rw [e3]
    simp only [Option.bind_some]
    rw [e4]
    simp only [Option.bind_some]
    rw [e5]
    rfl
  · by_cases h5 : p < X + (T - X) / 16 * 16
    · rw [k5 p (by omega), k4 p (by omega), v3 p h5]
    · have : r5[p]? = some (neonVal tapR RDM_ROUNDING narrow16 src stride b (fun k => w.getD k 0) p) := by
        by_cases h4 : p < X + (T - X) / 16 * 16 + n4 * 8
        · rw [k5 p h4, v4 p (by omega) h4]
        · exact v5 p (by omega) (by omega)
      rw [this]
      congr 1
      unfold neonVal
      congr 1
      refine tapFold_congr fun k _ => ⟨?_, rfl⟩
      unfold rdmW
      rw [if_neg (by omega)]

/-! ### Values -/

theorem tapFold_eq {tap : ℤ → ℕ → ℤ → ℤ} {term : ℕ → ℤ → ℤ} {cost : ℤ → ℤ} {M : ℤ} (T : TapOK tap term cost M)
    {init : ℤ} {W : ℕ → ℤ} {P : ℕ → ℕ} (hP : ∀ k, P k ≤ 255) (hW : ∀ k, -32768 ≤ W k ∧ W k ≤ 32767) {n : ℕ}
    (hM : 2 * |init| + ∑ k ∈ range n, cost (W k) ≤ M) :
    tapFold tap init W P n = init + ∑ k ∈ range n, term (P k) (W k) ∧
      2 * |tapFold tap init W P n| ≤ 2 * |init| + ∑ k ∈ range n, cost (W k) := by
  induction n with
  | zero => simp [tapFold]
  | succ n ih =>
    rw [sum_range_succ] at hM
    have := T.nonneg (W n)
    obtain ⟨h1, h2⟩ := ih (by omega)
    have h3 := T.add (tapFold tap init W P n) (P n) (W n) (hP n) (hW n) (by omega)
    have h4 := T.bound (P n) (W n) (hP n) (hW n)
    have h5 := abs_add_le (tapFold tap init W P n) (term (P n) (W n))
    unfold tapFold
    rw [h3, sum_range_succ, sum_range_succ]
    refine ⟨by rw [h1]; ring, by omega⟩

end PicScale
