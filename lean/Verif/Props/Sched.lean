import Verif.Lemmas.SchedResize

/-!
C27: threading does not change the result. C51: the parallel loops finish and have no data race.
-/

namespace PicScale

/-! ### C27 -/

/-- Any two ways of running one parallel loop over the rows end the same way: same destination, or
both panic. `f` is any closure; `n` is the chunk size. -/
theorem C27_schedules_agree {α β : Type} {n : ℕ} (hn : 0 < n) {f : List α → β → Option (List α)}
    {buf : List α} {xs : List β} {out₁ out₂ : Option (List α)}
    (h₁ : ParOutcome n f buf xs out₁) (h₂ : ParOutcome n f buf xs out₂) : out₁ = out₂ := by
  rw [parOutcome_unique hn h₁, parOutcome_unique hn h₂]

/-- … and it is what the sequential iterator does. -/
theorem C27_schedule_is_sequential {α β : Type} {n : ℕ} (hn : 0 < n) {f : List α → β → Option (List α)}
    {buf : List α} {xs : List β} {out : Option (List α)} (h : ParOutcome n f buf xs out) :
    out = updChunks n f buf xs := parOutcome_unique hn h

/-- `resize` of u8, u16 and f32 images with any number of channels: under every threading policy, on
every machine whose pools run each loop by *some* interleaving of the row tasks, returned value and
destination are those of `ThreadingPolicy::Single`. -/
theorem C27_resize (M : Machine) (hM : ∀ n, (M.pool n).Valid) (p : Policy) (W N : ℕ) (hN : 1 ≤ N) (t : PixelTy)
    (L : Lib) (r : ResamplingFunction) (store into : Image t.Sample) :
    resizeUnder M p W N t L r store into = resizeUnder M .single W N t L r store into := by
  have hs : resizeUnder M .single W N t L r store into = genericResize W N (t.format N) L r store into := by
    simp [resizeUnder, Machine.poolFor, Policy.getPool]
  rw [hs]
  unfold resizeUnder
  cases h : M.poolFor p into.width into.height with
  | none => rfl
  | some E =>
    have hE : E.Valid := by
      unfold Machine.poolFor at h
      cases hp : p.getPool M.avail (M.poolOk into.width into.height) into.width into.height with
      | none => simp [hp] at h
      | some n =>
        simp only [hp, Option.map_some, Option.some.injEq] at h
        rw [← h]; exact hM n
    exact genericResizePar_eq hE hN (agree_format hE t N) L r store into

/-- The same for `resize_with_alpha` of RGBA images. -/
theorem C27_resize_with_alpha (M : Machine) (hM : ∀ n, (M.pool n).Valid) (p : Policy) (W : ℕ) (t : PixelTy)
    (bits : ℚ → ℕ) (L : Lib) (r : ResamplingFunction) (store into : Image t.Sample) (requested : Bool) :
    resizeAlphaUnder M p W t bits L r store into requested =
      resizeAlphaUnder M .single W t bits L r store into requested := by
  have hs : resizeAlphaUnder M .single W t bits L r store into requested =
      genericResizeWithAlpha W 4 (t.format 4) (t.alpha bits) L r store into requested := by
    simp [resizeAlphaUnder, Machine.poolFor, Policy.getPool]
  rw [hs]
  unfold resizeAlphaUnder
  cases h : M.poolFor p into.width into.height with
  | none => rfl
  | some E =>
    have hE : E.Valid := by
      unfold Machine.poolFor at h
      cases hp : p.getPool M.avail (M.poolOk into.width into.height) into.width into.height with
      | none => simp [hp] at h
      | some n =>
        simp only [hp, Option.map_some, Option.some.injEq] at h
        rw [← h]; exact hM n
    exact genericResizeWithAlphaPar_eq hE (agree_format hE t 4) (geometry_format t 4) (agree_alpha hE t bits)
      L r store into requested

/-- The same for packed 10-bit images. -/
theorem C27_resize_ar30 (M : Machine) (hM : ∀ n, (M.pool n).Valid) (p : Policy) (W : ℕ) (F : Fmt30)
    (L : Lib) (r : ResamplingFunction) (src dst : Image ℕ) :
    resize30Under M p W F L r src dst = resize30Under M .single W F L r src dst := by
  have hs : resize30Under M .single W F L r src dst = resize30 W F L r src dst := by
    simp [resize30Under, Machine.poolFor, Policy.getPool]
  rw [hs]
  unfold resize30Under
  cases h : M.poolFor p dst.width dst.height with
  | none => rfl
  | some E =>
    have hE : E.Valid := by
      unfold Machine.poolFor at h
      cases hp : p.getPool M.avail (M.poolOk dst.width dst.height) dst.width dst.height with
      | none => simp [hp] at h
      | some n =>
        simp only [hp, Option.map_some, Option.some.injEq] at h
        rw [← h]; exact hM n
    exact resize30Par_eq hE L r src dst

/-! ### C51 -/

/-- Executions of a parallel loop are finite: no infinite sequence of steps from any state. -/
theorem C51_no_infinite_execution {α : Type} (n : ℕ) (run : ℕ → PoolState α) :
    ¬ ∀ i, PoolStep n (run i) (run (i + 1)) := by
  intro h
  obtain ⟨m, ⟨i, rfl⟩, hm⟩ := (pool_terminates (α := α) n).has_min (Set.range run) ⟨run 0, 0, rfl⟩
  exact hm (run (i + 1)) ⟨i + 1, rfl⟩ (h i)

/-- No deadlock: as long as a task is unfinished (and no task has panicked), some task can go on. -/
theorem C51_no_deadlock {α β : Type} {n : ℕ} {f : List α → β → Option (List α)} {buf : List α} {xs : List β}
    {ps : List (Prog α)} (hI : Implements n f buf.length xs ps) {s : PoolState α}
    (h : Relation.ReflTransGen (PoolStep n) ⟨buf, ps⟩ s) (hp : (.panic : Prog α) ∉ s.tasks)
    (hs : ¬ ∃ s', PoolStep n s s') : ∀ p ∈ s.tasks, p = .done := by
  intro p hpm
  by_contra hd
  obtain ⟨t, ht, e⟩ := List.getElem_of_mem hpm
  refine hs (pool_progress (by rw [hI.1]; exact Nat.min_le_left _ _) h
    (by rw [List.getElem?_eq_getElem ht, e]) hd ?_)
  rintro rfl
  exact hp hpm

/-- An access of task `t` to element `i` of its chunk is an access to this element of the buffer. -/
def address (n t i : ℕ) : ℕ := t * n + i

/-- No data race: different tasks never touch the same element, and no task touches an element beyond
the visited chunks. -/
theorem C51_no_race {n t u i j : ℕ} (hi : i < n) (hj : j < n) (h : t ≠ u) : address n t i ≠ address n u j :=
  addr_ne hi hj h

/-- Every step that changes memory changes exactly one element, inside the chunk of the task that
makes the step. -/
theorem C51_writes_stay_in_chunk {α : Type} {n : ℕ} {s s' : PoolState α} (h : PoolStep n s s') :
    s'.mem = s.mem ∨ ∃ t i v, t < s.tasks.length ∧ i < n ∧ s'.mem = s.mem.set (address n t i) v := by
  cases h with
  | read t i k v ht hi hv => exact .inl rfl
  | readPanic t i k ht hi => exact .inl rfl
  | write t i v k ht hi => exact .inr ⟨t, i, v, lt_of_getElem? ht, hi, rfl⟩
  | writePanic t i v k ht hi => exact .inl rfl

/-! ### the hypotheses can be met -/

/-- A machine whose pools are valid exists (they run the tasks one after another). -/
example : ∃ M : Machine, ∀ n, (M.pool n).Valid :=
  ⟨⟨8, fun _ _ => true, fun _ => seqPool⟩, fun _ => seqPool_valid⟩

/-- Two tasks incrementing two-element chunks: the second finishes first and the tasks interleave. -/
def demoTask : Prog ℕ := .read 0 fun a => .read 1 fun b => .write 0 (a + 1) (.write 1 (b + 1) .done)

/-- The closure of `demoTask`. -/
def demoClosure : List ℕ → ℕ → Option (List ℕ) := fun c _ => match c with
  | [a, b] => some [a + 1, b + 1]
  | _ => none

example : ParOutcome 2 demoClosure [1, 2, 3, 4, 5] [7, 8] (some [2, 3, 4, 5, 5]) := by
  refine ⟨[demoTask, demoTask], ⟨[2, 3, 4, 5, 5], [.done, .done]⟩, ⟨rfl, ?_⟩, ?_, .inl ⟨by simp, rfl⟩⟩
  · intro t p x hp hx c hc
    have hpe : p = demoTask := by
      have := List.mem_of_getElem? hp
      simpa using this
    subst hpe
    match c, hc with
    | [a, b], _ => rfl
  · -- task 1 reads, task 0 reads, task 1 reads and writes, task 0 finishes, task 1 finishes
    refine .head (.read _ 1 0 _ 3 rfl (by omega) rfl) ?_
    refine .head (.read _ 0 0 _ 1 rfl (by omega) rfl) ?_
    refine .head (.read _ 1 1 _ 4 rfl (by omega) rfl) ?_
    refine .head (.write _ 1 0 4 _ rfl (by omega)) ?_
    refine .head (.read _ 0 1 _ 2 rfl (by omega) rfl) ?_
    refine .head (.write _ 0 0 2 _ rfl (by omega)) ?_
    refine .head (.write _ 0 1 3 _ rfl (by omega)) ?_
    exact .head (.write _ 1 1 5 _ rfl (by omega)) .refl

/-- `ThreadingPolicy::Fixed(4)` does pick a pool, and the resize does run. -/
example : ∃ (M : Machine) (E : Pool), (∀ n, (M.pool n).Valid) ∧ M.poolFor (.fixed 4) 7 5 = some E :=
  ⟨⟨8, fun _ _ => true, fun _ => seqPool⟩, seqPool, fun _ => seqPool_valid, rfl⟩

end PicScale
