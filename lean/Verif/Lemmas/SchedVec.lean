import Verif.Lemmas.SchedResize
import Verif.Model.X86U16

/-!
Lengths for the vector handlers: loops over rows and blocks, registers, loads. Everything the parallel arms need.
-/

namespace PicScale

variable {S A W σ α β : Type}

/-! ### loops -/

theorem whileAcc_post {margin step size : ℕ} {body : ℕ → σ → Option σ} {P : σ → Prop}
    (hb : ∀ j s, P s → Post (body j s) P) :
    ∀ (fuel jx : ℕ) (s : σ), P s → Post (whileAcc margin step size body fuel jx s) (fun r => P r.2)
  | 0, _, _, h => Post.pure h
  | fuel + 1, jx, s, h => by
    unfold whileAcc
    refine Post.ite ?_ (Post.pure h)
    exact Post.bind' (hb jx s h) fun s' h' => whileAcc_post hb fuel (jx + step) s' h'

theorem forRange_post {a b : ℕ} {body : ℕ → σ → Option σ} {P : σ → Prop} (hb : ∀ j s, P s → Post (body j s) P)
    {s : σ} (h : P s) : Post (forRange a b body s) P := by
  unfold forRange
  exact Post.foldlM (fun s j hs => hb j s hs) _ _ h

theorem unrolled24_post {size : ℕ} {step step' : ℕ → σ → Option σ} {P : σ → Prop}
    (h1 : ∀ j s, P s → Post (step j s) P) (h2 : ∀ j s, P s → Post (step' j s) P) {s : σ} (h : P s) :
    Post (unrolled24 size step step' s) P := by
  unfold unrolled24
  refine Post.ite ?_ (Post.ite ?_ (Post.ite ?_ (forRange_post h2 h)))
  · exact Post.bind' (h1 _ _ h) fun a ha => h1 _ _ ha
  · exact Post.bind' (h1 _ _ h) fun a ha => Post.bind' (h1 _ _ ha) fun b hb => h1 _ _ hb
  · exact Post.bind' (h1 _ _ h) fun a ha => Post.bind' (h1 _ _ ha) fun b hb => Post.bind' (h1 _ _ hb) fun c hc =>
      h1 _ _ hc

theorem Post.mapM_mem {f : β → Option α} {P : α → Prop} :
    ∀ (l : List β), (∀ b ∈ l, Post (f b) P) → Post (l.mapM f) (fun r => r.length = l.length ∧ ∀ a ∈ r, P a)
  | [], _ => by
    rw [List.mapM_nil]
    exact Post.pure ⟨rfl, by simp⟩
  | b :: l, hf => by
    rw [List.mapM_cons]
    refine Post.bind' (hf b (by simp)) fun a ha =>
      Post.bind' (Post.mapM_mem l fun x hx => hf x (by simp [hx])) fun r hr => Post.pure ⟨by simp [hr.1], ?_⟩
    intro x hx
    rcases List.mem_cons.mp hx with rfl | hx
    · exact ha
    · exact hr.2 x hx

/-- The accumulators of all rows keep an invariant of the step. -/
theorem rowsLoop_post {margin step size : ℕ} {offs : List ℕ} {f : ℕ → ℕ → σ → Option σ} {P : σ → Prop}
    (hf : ∀ jx o s, P s → Post (f jx o s) P) {jx : ℕ} {st : List σ} (h : ∀ s ∈ st, P s) :
    Post (rowsLoop margin step size offs f jx st) (fun r => ∀ s ∈ r.2, P s) := by
  unfold rowsLoop
  refine whileAcc_post (P := fun st : List σ => ∀ s ∈ st, P s) (fun j st hst => ?_) _ _ _ h
  unfold rowsStep
  refine (Post.mapM_mem (P := P) _ fun b hb => hf j b.1 b.2 (hst b.2 ?_)).mono fun r hr => hr.2
  exact (List.of_mem_zip hb).2

theorem chunkLoop_len {B : ℕ} {body : ℕ → Option (List ℕ)} {off cx : ℕ} {dst : List ℕ} :
    Post (chunkLoop B body off cx dst) (fun r => r.2.2.length = dst.length) := by
  unfold chunkLoop
  refine Post.bind' (forRange_post (P := fun d : List ℕ => d.length = dst.length) (fun j s hs => ?_) rfl) fun d hd =>
    Post.pure hd
  exact Post.bind fun v _ => writeAt?_len.mono fun r hr => by rw [hr, hs]

/-! ### a handler that yields `N` samples for every row -/

/-- Every row of a result of the handler has `N` samples. -/
def HLen (N : ℕ) (h : List ℕ → List W → Bounds → Option (List (List S))) : Prop :=
  ∀ offs w b, Post (h offs w b) (fun l => ∀ r ∈ l, r.length = N)

theorem simdRow_len {N : ℕ} {h : List ℕ → List W → Bounds → Option (List (List S))} (hh : HLen N h)
    {dst : List S} {fw : FilterWeights W} : Post (simdRow N h dst fw) (fun r => r.length = dst.length) := by
  unfold simdRow
  refine rowPass_len fun w b => Post.bind' (hh _ _ _) fun l hl => ?_
  intro r hr
  exact hl r (List.mem_of_getElem? hr)

theorem simdRows4_len {N : ℕ} {h : List ℕ → List W → Bounds → Option (List (List S))} (hh : HLen N h) {ss : ℕ}
    {dst : List S} {ds : ℕ} {fw : FilterWeights W} :
    Post (simdRows4 N h ss dst ds fw) (fun r => r.length = dst.length) := by
  unfold simdRows4
  refine rows4Pass_len fun w b => Post.bind' (hh _ _ _) fun l hl => Post.bind fun r0 h0 => Post.bind fun r1 h1 =>
    Post.bind fun r2 h2 => Post.bind fun r3 h3 => Post.pure ?_
  exact ⟨hl _ (List.mem_of_getElem? h0), hl _ (List.mem_of_getElem? h1), hl _ (List.mem_of_getElem? h2),
    hl _ (List.mem_of_getElem? h3)⟩

theorem map_len {N : ℕ} {f : σ → List S} {P : σ → Prop} (hf : ∀ s, P s → (f s).length = N) {st : List σ}
    (h : ∀ s ∈ st, P s) : ∀ r ∈ st.map f, r.length = N := by
  intro r hr
  obtain ⟨s, hs, rfl⟩ := List.mem_map.mp hr
  exact hf s (h s hs)

/-- Steps down a do-block whose last statement writes into the row. -/
macro "post_write" : tactic => `(tactic| (repeat' (first
  | exact writeAt?_len | exact Post.ite writeAt?_len writeAt?_len | refine Post.bind fun _ _ => ?_
  | refine Post.ite ?_ ?_)))

/-! ### registers -/

@[simp] theorem bytes16_len (v : ℤ) : (bytes16 v).length = 2 := rfl
@[simp] theorem bytes32_len (v : ℤ) : (bytes32 v).length = 4 := rfl
@[simp] theorem ofLanes16_len (l : List ℤ) : (ofLanes16 l).length = 2 * l.length := by
  induction l with
  | nil => rfl
  | cons a t ih => simp only [ofLanes16, List.flatMap_cons, List.length_append] at ih ⊢; simp [ih]; omega
@[simp] theorem ofLanes32_len (l : List ℤ) : (ofLanes32 l).length = 4 * l.length := by
  induction l with
  | nil => rfl
  | cons a t ih => simp only [ofLanes32, List.flatMap_cons, List.length_append] at ih ⊢; simp [ih]; omega
@[simp] theorem lanes16_len : ∀ r : Reg, (lanes16 r).length = r.length / 2
  | [] => rfl
  | [_] => by simp [lanes16]
  | a :: b :: t => by simp [lanes16, lanes16_len t]; omega
@[simp] theorem lanes32_len : ∀ r : Reg, (lanes32 r).length = r.length / 4
  | [] => rfl
  | [_] => by simp [lanes32]
  | [_, _] => by simp [lanes32]
  | [_, _, _] => by simp [lanes32]
  | a :: b :: c :: d :: t => by simp [lanes32, lanes32_len t]; omega
@[simp] theorem maddLanes_len : ∀ a b : List ℤ, (maddLanes a b).length = min (a.length / 2) (b.length / 2)
  | [], _ => by simp [maddLanes]
  | [_], _ => by simp [maddLanes]
  | _ :: _ :: _, [] => by simp [maddLanes]
  | _ :: _ :: _, [_] => by simp [maddLanes]
  | a :: a' :: as, b :: b' :: bs => by simp [maddLanes, maddLanes_len as bs]; omega
@[simp] theorem interleave_len : ∀ a b : List α, (interleave a b).length = 2 * min a.length b.length
  | [], _ => by simp [interleave]
  | _ :: _, [] => by simp [interleave]
  | a :: as, b :: bs => by simp [interleave, interleave_len as bs]; omega
@[simp] theorem interleave2_len : ∀ a b : List α,
    (interleave2 a b).length = 4 * min (a.length / 2) (b.length / 2)
  | [], _ => by simp [interleave2]
  | [_], _ => by simp [interleave2]
  | _ :: _ :: _, [] => by simp [interleave2]
  | _ :: _ :: _, [_] => by simp [interleave2]
  | a :: a' :: as, b :: b' :: bs => by simp [interleave2, interleave2_len as bs]; omega
@[simp] theorem haddLanes_len : ∀ a : List ℤ, (haddLanes a).length = a.length / 2
  | [] => rfl
  | [_] => by simp [haddLanes]
  | a :: b :: t => by simp [haddLanes, haddLanes_len t]; omega

/-- A 128-bit register. -/
def R16 (r : Reg) : Prop := r.length = 16

theorem r16_add32 {a b : Reg} (ha : R16 a) (hb : R16 b) : R16 (add32 a b) := by
  unfold R16 at *; simp [add32, ha, hb]
theorem r16_add16 {a b : Reg} (ha : R16 a) (hb : R16 b) : R16 (add16 a b) := by
  unfold R16 at *; simp [add16, ha, hb]
theorem r16_madd16 {a b : Reg} (ha : R16 a) (hb : R16 b) : R16 (madd16 a b) := by
  unfold R16 at *; simp [madd16, ha, hb]
theorem r16_mulhrs16 {a b : Reg} (ha : R16 a) (hb : R16 b) : R16 (mulhrs16 a b) := by
  unfold R16 at *; simp [mulhrs16, ha, hb]
theorem r16_srai32 {n : ℕ} {a : Reg} (ha : R16 a) : R16 (srai32 n a) := by
  unfold R16 at *; simp [srai32, ha]
theorem r16_srai16 {n : ℕ} {a : Reg} (ha : R16 a) : R16 (srai16 n a) := by
  unfold R16 at *; simp [srai16, ha]
theorem r16_srli16 {n : ℕ} {a : Reg} (ha : R16 a) : R16 (srli16 n a) := by
  unfold R16 at *; simp [srli16, ha]
theorem r16_packs32 {a b : Reg} (ha : R16 a) (hb : R16 b) : R16 (packs32 a b) := by
  unfold R16 at *; simp [packs32, ha, hb]
theorem r16_packus32 {a b : Reg} (ha : R16 a) (hb : R16 b) : R16 (packus32 a b) := by
  unfold R16 at *; simp [packus32, ha, hb]
theorem r16_packus16 {a b : Reg} (ha : R16 a) (hb : R16 b) : R16 (packus16 a b) := by
  unfold R16 at *; simp [packus16, ha, hb]
theorem r16_hadd16 {a b : Reg} (ha : R16 a) (hb : R16 b) : R16 (hadd16 a b) := by
  unfold R16 at *; simp [hadd16, ha, hb]
theorem r16_unpacklo8 {a b : Reg} (ha : R16 a) (hb : R16 b) : R16 (unpacklo8 a b) := by
  unfold R16 at *; simp [unpacklo8, ha, hb]
theorem r16_unpackhi8 {a b : Reg} (ha : R16 a) (hb : R16 b) : R16 (unpackhi8 a b) := by
  unfold R16 at *; simp [unpackhi8, ha, hb]
theorem r16_unpacklo16 {a b : Reg} (ha : R16 a) (hb : R16 b) : R16 (unpacklo16 a b) := by
  unfold R16 at *; simp [unpacklo16, ha, hb]
theorem r16_unpackhi16 {a b : Reg} (ha : R16 a) (hb : R16 b) : R16 (unpackhi16 a b) := by
  unfold R16 at *; simp [unpackhi16, ha, hb]
theorem r16_unpackhi64 {a b : Reg} (ha : R16 a) (hb : R16 b) : R16 (unpackhi64 a b) := by
  unfold R16 at *; simp [unpackhi64, ha, hb]
theorem r16_alignr {n : ℕ} {a b : Reg} (hn : n ≤ 16) (ha : R16 a) (hb : R16 b) : R16 (alignr n a b) := by
  unfold R16 at *; simp [alignr, ha, hb]; omega
theorem r16_setzero : R16 setzero := rfl
theorem r16_set1epi8 {v : ℕ} : R16 (set1epi8 v) := by simp [R16, set1epi8]
theorem r16_set1epi16 {v : ℤ} : R16 (set1epi16 v) := by simp [R16, set1epi16]
theorem r16_set1epi32 {v : ℤ} : R16 (set1epi32 v) := by simp [R16, set1epi32, set1bytes32]
theorem r16_set1bytes32 {bs : List ℕ} (h : bs.length = 4) : R16 (set1bytes32 bs) := by
  simp [R16, set1bytes32, h]
theorem r16_setr16 {l : List ℤ} (h : l.length = 8) : R16 (setr16 l) := by simp [R16, setr16, h]
theorem r16_setr32 {l : List ℤ} (h : l.length = 4) : R16 (setr32 l) := by simp [R16, setr32, h]
theorem r16_shuffle8 {a : Reg} {m : List ℤ} (h : m.length = 16) : R16 (shuffle8 a m) := by
  simp [R16, shuffle8, h]
theorem r16_cvtepi16epi32 {a : Reg} (ha : R16 a) : R16 (cvtepi16epi32 a) := by
  unfold R16 at *; simp [cvtepi16epi32, ha]
theorem r16_insert8at2 {a : Reg} {v : ℕ} (ha : R16 a) : R16 (insert8at2 a v) := by
  unfold R16 at *; simp [insert8at2, ha]
theorem r16_shuffle32 {i j k l : ℕ} {a : Reg} (h : i < 4 ∧ j < 4 ∧ k < 4 ∧ l < 4) (ha : R16 a) :
    R16 (shuffle32 [i, j, k, l] a) := by
  unfold R16 at *; simp [shuffle32, ha]; omega
theorem r16_shufflelo16 {i j k l : ℕ} {a : Reg} (h : i < 8 ∧ j < 8 ∧ k < 8 ∧ l < 8) (ha : R16 a) :
    R16 (shufflelo16 [i, j, k, l] a) := by
  unfold R16 at *; simp [shufflelo16, ha]; omega
theorem r16_dup {a : Reg} (ha : R16 a) : R16 (dupLo a) ∧ R16 (dupHi a) :=
  ⟨r16_srli16 (r16_unpacklo8 ha ha), r16_srli16 (r16_unpackhi8 ha ha)⟩

theorem r16_dupLo {a : Reg} (ha : R16 a) : R16 (dupLo a) := (r16_dup ha).1
theorem r16_dupHi {a : Reg} (ha : R16 a) : R16 (dupHi a) := (r16_dup ha).2

theorem loadBytes_len {src : List ℕ} {off n : ℕ} : Post (loadBytes src off n) (fun r => r.length = n) := by
  intro r hr
  unfold loadBytes at hr
  cases h : slice? src off (off + n) with
  | none => simp [h] at hr
  | some l =>
    simp only [h, Option.map_some, Option.some.injEq] at hr
    subst hr
    have := slice?_length h
    simp; omega
theorem map_post {f : β → α} {o : Option β} {P : β → Prop} {Q : α → Prop} (ho : Post o P) (h : ∀ b, P b → Q (f b)) :
    Post (o.map f) Q := by
  intro r hr
  cases o with
  | none => simp at hr
  | some b =>
    simp only [Option.map_some, Option.some.injEq] at hr
    subst hr
    exact h b (ho b rfl)
theorem slice?_post {l : List α} {a b : ℕ} : Post (slice? l a b) (fun r => r.length = b - a) := by
  intro r hr
  have := slice?_length hr
  omega
theorem r16_load128 {src : List ℕ} {off : ℕ} : Post (load128 src off) R16 := loadBytes_len
theorem r16_load64 {src : List ℕ} {off : ℕ} : Post (load64 src off) R16 :=
  map_post loadBytes_len fun b hb => by simp [R16, hb]
theorem r16_load32 {src : List ℕ} {off : ℕ} : Post (load32 src off) R16 :=
  map_post loadBytes_len fun b hb => by simp [R16, hb]
theorem r16_load16 {src : List ℕ} {off : ℕ} : Post (load16 src off) R16 :=
  map_post loadBytes_len fun b hb => by simp [R16, hb]
theorem r16_load8 {src : List ℕ} {off : ℕ} : Post (load8 src off) R16 :=
  map_post loadBytes_len fun b hb => by simp [R16, hb]
theorem weightBytes_len {w : List ℤ} {off n : ℕ} : Post (weightBytes w off n) (fun r => r.length = 2 * n) :=
  map_post slice?_post fun b hb => by simp [hb]
theorem r16_loadWeights {w : List ℤ} {off n : ℕ} (h : n ≤ 8) : Post (loadWeights w off n) R16 :=
  map_post weightBytes_len fun b hb => by simp [R16, hb]; omega
theorem r16_loadRgbX2 {src : List ℕ} {off : ℕ} : Post (loadRgbX2 src off) R16 := by
  unfold loadRgbX2
  exact Post.bind' loadBytes_len fun a ha => Post.bind' loadBytes_len fun c hc => Post.pure (by simp [R16, ha, hc])
theorem r16_loadRgbX4 {src : List ℕ} {off : ℕ} : Post (loadRgbX4 src off) R16 := by
  unfold loadRgbX4
  exact Post.bind' loadBytes_len fun a ha => Post.bind' loadBytes_len fun c hc => Post.pure (by simp [R16, ha, hc])

/-- `R16` of an expression of registers. -/
macro "r16" : tactic => `(tactic| (repeat' (first
  | with_reducible assumption
  | with_reducible exact r16_setzero | with_reducible exact r16_set1epi8 | with_reducible exact r16_set1epi16
  | with_reducible exact r16_set1epi32
  | ((with_reducible refine r16_set1bytes32 ?_) <;> assumption) | ((with_reducible refine r16_setr16 ?_) <;> rfl)
  | ((with_reducible refine r16_setr32 ?_) <;> rfl) | ((with_reducible refine r16_shuffle8 ?_) <;> rfl)
  | with_reducible apply r16_dupLo | with_reducible apply r16_dupHi
  | with_reducible apply r16_add32 | with_reducible apply r16_add16 | with_reducible apply r16_madd16
  | with_reducible apply r16_mulhrs16 | with_reducible apply r16_srai32 | with_reducible apply r16_srai16
  | with_reducible apply r16_srli16 | with_reducible apply r16_packs32 | with_reducible apply r16_packus32
  | with_reducible apply r16_packus16 | with_reducible apply r16_hadd16
  | with_reducible apply r16_unpacklo8 | with_reducible apply r16_unpackhi8 | with_reducible apply r16_unpacklo16
  | with_reducible apply r16_unpackhi16 | with_reducible apply r16_unpackhi64
  | with_reducible apply r16_cvtepi16epi32 | with_reducible apply r16_insert8at2
  | with_reducible refine r16_alignr (by omega) ?_ ?_
  | with_reducible refine r16_shuffle32 (by omega) ?_ | with_reducible refine r16_shufflelo16 (by omega) ?_)))

/-- Steps down a do-block that loads registers and returns a register. -/
macro "post_r16" : tactic => `(tactic| (repeat' (first
  | refine Post.bind' r16_load128 fun _ _ => ?_ | refine Post.bind' r16_load64 fun _ _ => ?_
  | refine Post.bind' r16_load32 fun _ _ => ?_ | refine Post.bind' r16_load16 fun _ _ => ?_
  | refine Post.bind' r16_load8 fun _ _ => ?_ | refine Post.bind' weightBytes_len fun _ _ => ?_
  | refine Post.bind' (r16_loadWeights (by omega)) fun _ _ => ?_
  | refine Post.bind' r16_loadRgbX2 fun _ _ => ?_ | refine Post.bind' r16_loadRgbX4 fun _ _ => ?_
  | refine Post.bind fun _ _ => ?_ | refine Post.pure ?_)))

end PicScale
