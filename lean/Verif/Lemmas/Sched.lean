import Verif.Model.Sched
import Verif.Lemmas.Slices
import Mathlib.Tactic.Ring
import Mathlib.Logic.Hydra
import Mathlib.Tactic.Linarith

namespace PicScale

variable {α β S : Type}

/-- Elements `t * n .. t * n + n`. -/
def chunkAt (n t : ℕ) (l : List α) : List α := (l.drop (t * n)).take n

theorem chunkAt_get {n t i : ℕ} {l : List α} (hi : i < n) : (chunkAt n t l)[i]? = l[t * n + i]? :=
  chunk_get hi

theorem addr_ne {n t u i j : ℕ} (hi : i < n) (hj : j < n) (h : t ≠ u) : t * n + i ≠ u * n + j := by
  intro e
  rcases Nat.lt_or_gt_of_ne h with h | h
  · have : (t + 1) * n ≤ u * n := Nat.mul_le_mul_right n h
    rw [Nat.add_mul] at this
    omega
  · have : (u + 1) * n ≤ t * n := Nat.mul_le_mul_right n h
    rw [Nat.add_mul] at this
    omega

theorem chunkAt_length {n t : ℕ} {l : List α} (h : t < l.length / n) : (chunkAt n t l).length = n :=
  chunk_length h

theorem chunkAt_set_self {n t i : ℕ} {l : List α} {v : α} (hi : i < n) (h : t < l.length / n) :
    chunkAt n t (l.set (t * n + i) v) = (chunkAt n t l).set i v := by
  apply List.ext_getElem?
  intro j
  by_cases hj : j < n
  · rw [chunkAt_get hj, List.getElem?_set, List.getElem?_set, chunkAt_get hj, chunkAt_length h]
    have hl : t * n + i < l.length := by
      have : (t + 1) * n ≤ l.length :=
        le_trans (Nat.mul_le_mul_right n h) (Nat.div_mul_le_self _ _)
      rw [Nat.add_mul] at this
      omega
    by_cases hij : i = j
    · subst hij; simp [hl, hi]
    · rw [if_neg (by omega), if_neg hij]
  · rw [List.getElem?_eq_none (by rw [chunkAt_length (by simpa using h)]; omega),
      List.getElem?_eq_none (by rw [List.length_set, chunkAt_length h]; omega)]

theorem chunkAt_set_other {n t u i : ℕ} {l : List α} {v : α} (hi : i < n) (h : t < l.length / n) (hne : u ≠ t) :
    chunkAt n t (l.set (u * n + i) v) = chunkAt n t l := by
  apply List.ext_getElem?
  intro j
  by_cases hj : j < n
  · rw [chunkAt_get hj, List.getElem?_set, chunkAt_get hj, if_neg (addr_ne hi hj hne)]
  · rw [List.getElem?_eq_none (by rw [chunkAt_length (by simpa using h)]; omega),
      List.getElem?_eq_none (by rw [chunkAt_length h]; omega)]

/-- What every reachable state of the pool satisfies. -/
structure PoolInv (n : ℕ) (buf : List α) (ps : List (Prog α)) (s : PoolState α) : Prop where
  memLen : s.mem.length = buf.length
  taskLen : s.tasks.length = ps.length
  chunk : ∀ (t : ℕ) (p p0 : Prog α), s.tasks[t]? = some p → ps[t]? = some p0 →
    p.run (chunkAt n t s.mem) = p0.run (chunkAt n t buf)
  rest : ∀ a, ps.length * n ≤ a → s.mem[a]? = buf[a]?

theorem lt_of_getElem? {l : List α} {t : ℕ} {p : α} (h : l[t]? = some p) : t < l.length := by
  by_contra hc
  rw [List.getElem?_eq_none (by omega)] at h
  simp at h

theorem PoolInv.step {n : ℕ} {buf : List α} {ps : List (Prog α)} {s s' : PoolState α}
    (hT : ps.length ≤ buf.length / n) (h : PoolInv n buf ps s) (st : PoolStep n s s') :
    PoolInv n buf ps s' := by
  have htl : ∀ {t : ℕ} {p : Prog α}, s.tasks[t]? = some p → t < s.mem.length / n := by
    intro t p hp
    have := lt_of_getElem? hp
    have := h.taskLen
    have := h.memLen
    rw [h.memLen]
    omega
  have aux : ∀ {t : ℕ} {p q : Prog α}, s.tasks[t]? = some p →
      (q.run (chunkAt n t s.mem) = p.run (chunkAt n t s.mem)) →
      PoolInv n buf ps { s with tasks := s.tasks.set t q } := by
    intro t p q hp hq
    refine ⟨h.memLen, by simpa using h.taskLen, ?_, h.rest⟩
    intro u r r0 hr hr0
    dsimp only at hr ⊢
    by_cases hut : t = u
    · subst hut
      rw [List.getElem?_set, if_pos rfl, if_pos (lt_of_getElem? hp)] at hr
      simp only [Option.some.injEq] at hr
      subst hr
      rw [hq]
      exact h.chunk t p r0 hp hr0
    · rw [List.getElem?_set, if_neg hut] at hr
      exact h.chunk u r r0 hr hr0
  cases st with
  | read t i k v ht hi hv =>
    refine aux ht ?_
    have : (chunkAt n t s.mem)[i]? = some v := by rw [chunkAt_get hi]; exact hv
    rw [Prog.run, this]
  | readPanic t i k ht hi =>
    refine aux ht ?_
    have : (chunkAt n t s.mem)[i]? = none :=
      List.getElem?_eq_none (by rw [chunkAt_length (htl ht)]; omega)
    rw [Prog.run, Prog.run, this]
  | writePanic t i v k ht hi =>
    refine aux ht ?_
    rw [Prog.run, Prog.run, if_neg (by rw [chunkAt_length (htl ht)]; exact hi)]
  | write t i v k ht hi =>
    refine ⟨by simpa using h.memLen, by simpa using h.taskLen, ?_, ?_⟩
    · intro u r r0 hr hr0
      dsimp only at hr ⊢
      by_cases hut : t = u
      · subst hut
        rw [List.getElem?_set, if_pos rfl, if_pos (lt_of_getElem? ht)] at hr
        simp only [Option.some.injEq] at hr
        subst hr
        rw [chunkAt_set_self hi (htl ht), ← h.chunk t _ r0 ht hr0, Prog.run,
          if_pos (by rw [chunkAt_length (htl ht)]; exact hi)]
      · rw [List.getElem?_set, if_neg hut] at hr
        rw [chunkAt_set_other hi (htl hr) hut]
        exact h.chunk u r r0 hr hr0
    · intro a ha
      dsimp only
      have : t * n + i < ps.length * n := by
        have h1 := lt_of_getElem? ht
        rw [h.taskLen] at h1
        have : (t + 1) * n ≤ ps.length * n := Nat.mul_le_mul_right n h1
        rw [Nat.add_mul] at this
        omega
      rw [List.getElem?_set, if_neg (by omega)]
      exact h.rest a ha

theorem PoolInv.reach {n : ℕ} {buf : List α} {ps : List (Prog α)} {s : PoolState α}
    (hT : ps.length ≤ buf.length / n) (h : Relation.ReflTransGen (PoolStep n) ⟨buf, ps⟩ s) :
    PoolInv n buf ps s := by
  induction h with
  | refl =>
    refine ⟨rfl, rfl, ?_, fun _ _ => rfl⟩
    intro t p p0 hp hp0
    dsimp only at hp ⊢
    rw [hp] at hp0
    simp only [Option.some.injEq] at hp0
    rw [hp0]
  | tail _ st ih => exact ih.step hT st

/-- `updChunks` looks at no more than `buf.len() / n` elements of the zipped list. -/
theorem updChunks_take {n : ℕ} (f : List α → β → Option (List α)) (hn : 0 < n) :
    ∀ (xs : List β) (buf : List α),
      updChunks n f buf xs = updChunks n f buf (xs.take (buf.length / n))
  | [], buf => by simp [updChunks]
  | x :: xs, buf => by
    by_cases hb : buf.length < n
    · rw [Nat.div_eq_of_lt hb]
      simp [updChunks, hb]
    · have : buf.length / n = (buf.drop n).length / n + 1 := by
        rw [List.length_drop]
        have := Nat.sub_add_cancel (Nat.le_of_not_lt hb)
        conv_lhs => rw [← this]
        rw [Nat.add_div_right _ hn]
      rw [this, List.take_succ_cons, updChunks, updChunks, if_neg hb, if_neg hb,
        updChunks_take f hn xs (buf.drop n)]

theorem chunkAt_succ {n t : ℕ} {l : List α} : chunkAt n t (l.drop n) = chunkAt n (t + 1) l := by
  unfold chunkAt
  rw [List.drop_drop]
  congr 2
  ring

theorem updChunks_none {n : ℕ} (f : List α → β → Option (List α)) (hn : 0 < n) :
    ∀ (xs : List β) (buf : List α) (t : ℕ) (x : β), xs[t]? = some x → t < buf.length / n →
      f (chunkAt n t buf) x = none → updChunks n f buf xs = none
  | [], buf, t, x, hx, _, _ => by simp at hx
  | y :: ys, buf, t, x, hx, ht, hf => by
    have hb : ¬ buf.length < n := by
      intro hb
      rw [Nat.div_eq_of_lt hb] at ht
      omega
    rw [updChunks, if_neg hb]
    cases t with
    | zero =>
      simp only [List.getElem?_cons_zero, Option.some.injEq] at hx
      subst hx
      have : f (buf.take n) y = none := by simpa [chunkAt] using hf
      rw [this]; rfl
    | succ t =>
      have hd : buf.length / n = (buf.drop n).length / n + 1 := by
        rw [List.length_drop]
        have := Nat.sub_add_cancel (Nat.le_of_not_lt hb)
        conv_lhs => rw [← this]
        rw [Nat.add_div_right _ hn]
      rw [updChunks_none f hn ys (buf.drop n) t x (by simpa using hx) (by omega)
        (by rw [chunkAt_succ]; exact hf)]
      cases f (buf.take n) y <;> rfl

/-- Every schedule ends the same way, namely as the sequential loop. -/
theorem parOutcome_unique {n : ℕ} {f : List α → β → Option (List α)} {buf : List α} {xs : List β}
    {out : Option (List α)} (hn : 0 < n) (h : ParOutcome n f buf xs out) :
    out = updChunks n f buf xs := by
  obtain ⟨ps, s, ⟨hlen, himp⟩, hreach, hfin⟩ := h
  have hT : ps.length ≤ buf.length / n := by omega
  have hI := PoolInv.reach hT hreach
  rcases hfin with ⟨hdone, rfl⟩ | ⟨hp, rfl⟩
  · -- all tasks done
    rw [updChunks_take f hn]
    have hxl : (xs.take (buf.length / n)).length = ps.length := by
      rw [List.length_take, hlen]
    have hrun : ∀ (t : ℕ) (x : β), (xs.take (buf.length / n))[t]? = some x →
        f (chunkAt n t buf) x = some (chunkAt n t s.mem) := by
      intro t x hx
      have ht : t < ps.length := by rw [← hxl]; exact lt_of_getElem? hx
      have hx' : xs[t]? = some x := by
        rw [List.getElem?_take, if_pos (by omega)] at hx
        exact hx
      have h0 : ps[t]? = some ps[t] := List.getElem?_eq_getElem ht
      have hst : t < s.tasks.length := by rw [hI.taskLen]; exact ht
      have h1 : s.tasks[t]? = some .done := by
        rw [List.getElem?_eq_getElem hst, hdone _ (List.getElem_mem hst)]
      have h2 := hI.chunk t _ _ h1 h0
      rw [himp t _ x h0 hx' _ (chunkAt_length (by omega))] at h2
      rw [← h2, Prog.run]
    obtain ⟨r, hr, hrl, hr1, hr2⟩ := updChunks_spec n f (xs.take (buf.length / n)) buf
      (fun t => chunkAt n t s.mem)
      (by
        rw [hxl]
        exact le_trans (Nat.mul_le_mul_right n hT) (Nat.div_mul_le_self _ _))
      hrun
      (by
        intro t ht
        rw [hxl] at ht
        exact chunkAt_length (by rw [hI.memLen]; omega))
    rw [hr]
    congr 1
    apply List.ext_getElem?
    intro p
    by_cases hp : p < ps.length * n
    · have hpn : p / n < ps.length := Nat.div_lt_of_lt_mul (by rw [Nat.mul_comm]; exact hp)
      have e : p / n * n + p % n = p := Nat.div_add_mod' p n
      have := hr1 (p / n) (p % n) (by rw [hxl]; exact hpn) (Nat.mod_lt _ hn)
      rw [chunkAt_get (Nat.mod_lt _ hn), e] at this
      exact this.symm
    · rw [hI.rest p (by omega), hr2 p (by rw [hxl]; omega)]
  · obtain ⟨t, ht, e⟩ := List.getElem_of_mem hp
    have htp : t < ps.length := by rw [← hI.taskLen]; exact ht
    have h0 : ps[t]? = some ps[t] := List.getElem?_eq_getElem htp
    have h1 : s.tasks[t]? = some .panic := by rw [List.getElem?_eq_getElem ht, e]
    have hx : t < xs.length := by omega
    have h2 := hI.chunk t _ _ h1 h0
    rw [himp t _ xs[t] h0 (List.getElem?_eq_getElem hx) _ (chunkAt_length (by omega)), Prog.run] at h2
    exact (updChunks_none f hn xs buf t xs[t] (List.getElem?_eq_getElem hx) (by omega) h2.symm).symm

/-! ### progress -/

/-- No state is stuck: while some task is neither finished nor panicked, it can make a step. -/
theorem pool_progress {n : ℕ} {buf : List α} {ps : List (Prog α)} {s : PoolState α}
    (hT : ps.length ≤ buf.length / n) (h : Relation.ReflTransGen (PoolStep n) ⟨buf, ps⟩ s)
    {t : ℕ} {p : Prog α} (hp : s.tasks[t]? = some p) (h1 : p ≠ .done) (h2 : p ≠ .panic) :
    ∃ s', PoolStep n s s' := by
  have hI := PoolInv.reach hT h
  cases p with
  | done => exact absurd rfl h1
  | panic => exact absurd rfl h2
  | read i k =>
    by_cases hi : i < n
    · have ht : t < ps.length := by rw [← hI.taskLen]; exact lt_of_getElem? hp
      have hlt : t * n + i < s.mem.length := by
        rw [hI.memLen]
        have : (t + 1) * n ≤ buf.length / n * n := Nat.mul_le_mul_right n (by omega)
        have := Nat.div_mul_le_self buf.length n
        rw [Nat.add_mul] at *
        omega
      exact ⟨_, .read s t i k _ hp hi (List.getElem?_eq_getElem hlt)⟩
    · exact ⟨_, .readPanic s t i k hp hi⟩
  | write i v k =>
    by_cases hi : i < n
    · exact ⟨_, .write s t i v k hp hi⟩
    · exact ⟨_, .writePanic s t i v k hp hi⟩

/-! ### termination -/

/-- `p` is what is left of `q` after its next access. -/
inductive Prog.After : Prog α → Prog α → Prop
  | read (i : ℕ) (k : α → Prog α) (v : α) : Prog.After (k v) (.read i k)
  | readPanic (i : ℕ) (k : α → Prog α) : Prog.After .panic (.read i k)
  | write (i : ℕ) (v : α) (k : Prog α) : Prog.After k (.write i v k)
  | writePanic (i : ℕ) (v : α) (k : Prog α) : Prog.After .panic (.write i v k)

theorem Prog.After.wf : WellFounded (Prog.After (α := α)) := by
  have hp : Acc (Prog.After (α := α)) .panic := ⟨_, fun q h => by cases h⟩
  refine ⟨fun p => ?_⟩
  induction p with
  | done => exact ⟨_, fun q h => by cases h⟩
  | panic => exact hp
  | read i k ih =>
    refine ⟨_, fun q h => ?_⟩
    cases h with
    | read _ _ v => exact ih v
    | readPanic => exact hp
  | write i v k ih =>
    refine ⟨_, fun q h => ?_⟩
    cases h with
    | write => exact ih
    | writePanic => exact hp

theorem coe_set_add {l : List α} {t : ℕ} {p : α} (h : l[t]? = some p) (q : α) :
    ((l.set t q : List α) : Multiset α) + {p} = (l : Multiset α) + {q} := by
  induction l generalizing t with
  | nil => simp at h
  | cons a l ih =>
    cases t with
    | zero =>
      simp only [List.getElem?_cons_zero, Option.some.injEq] at h
      subst h
      rw [List.set_cons_zero, ← Multiset.cons_coe, ← Multiset.cons_coe, ← Multiset.singleton_add, ← Multiset.singleton_add]
      ac_rfl
    | succ t =>
      have := ih (by simpa using h)
      rw [List.set_cons_succ, ← Multiset.cons_coe, ← Multiset.cons_coe, Multiset.cons_add, Multiset.cons_add, this]

theorem PoolStep.after {n : ℕ} {s s' : PoolState α} (h : PoolStep n s s') :
    Relation.CutExpand Prog.After (s'.tasks : Multiset (Prog α)) (s.tasks : Multiset (Prog α)) := by
  have aux : ∀ {t : ℕ} {p q : Prog α}, s.tasks[t]? = some p → Prog.After q p →
      Relation.CutExpand Prog.After ((s.tasks.set t q : List _) : Multiset (Prog α)) (s.tasks : Multiset (Prog α)) := by
    intro t p q hp hq
    refine ⟨{q}, p, ?_, coe_set_add hp q⟩
    intro a ha
    rw [Multiset.mem_singleton] at ha
    subst ha
    exact hq
  cases h with
  | read t i k v ht hi hv => exact aux ht (.read i k v)
  | readPanic t i k ht hi => exact aux ht (.readPanic i k)
  | write t i v k ht hi => exact aux ht (.write i v k)
  | writePanic t i v k ht hi => exact aux ht (.writePanic i v k)

/-- There is no infinite execution of the pool. -/
theorem pool_terminates (n : ℕ) : WellFounded (fun s' s : PoolState α => PoolStep n s s') := by
  have w : WellFounded (Relation.CutExpand (Prog.After (α := α))) := Prog.After.wf.cutExpand
  exact Subrelation.wf (fun h => PoolStep.after h) (InvImage.wf (fun s : PoolState α => (s.tasks : Multiset (Prog α))) w)

/-- The program that reads its whole chunk, computes the closure, and writes the result back. -/
def writeAll (k : Prog α) : ℕ → List α → Prog α
  | _, [] => k
  | i, v :: vs => .write i v (writeAll k (i + 1) vs)

/-- Read elements `i .. i + m`, then continue with what was read. -/
def readAll (k : List α → Prog α) : ℕ → ℕ → List α → Prog α
  | 0, _, acc => k acc
  | m + 1, i, acc => .read i fun v => readAll k m (i + 1) (acc ++ [v])

/-- A program for the closure `f _ x`. -/
def closureProg (n : ℕ) (f : List α → β → Option (List α)) (x : β) : Prog α :=
  readAll (fun c => match f c x with
    | some r => writeAll .done 0 r
    | none => .panic) n 0 []

theorem run_writeAll (k : Prog α) : ∀ (vs : List α) (i : ℕ) (c : List α), i + vs.length ≤ c.length →
    (writeAll k i vs).run c = k.run (c.take i ++ vs ++ c.drop (i + vs.length))
  | [], i, c, _ => by simp [writeAll]
  | v :: vs, i, c, h => by
    have hi : i < c.length := by simp at h; omega
    rw [writeAll, Prog.run, if_pos hi, run_writeAll k vs (i + 1) (c.set i v) (by simp at h ⊢; omega)]
    congr 1
    rw [List.take_set, List.take_succ_eq_append_getElem hi, List.set_append_right _ _ (by simp),
      List.drop_set_of_lt (by omega)]
    simp only [List.length_take, List.length_cons]
    rw [show i - min i c.length = 0 by omega]
    simp only [List.set_cons_zero, List.append_assoc, List.cons_append, List.nil_append]
    rw [show i + 1 + vs.length = i + (vs.length + 1) by omega]

theorem run_readAll (k : List α → Prog α) : ∀ (m i : ℕ) (acc c : List α), i + m ≤ c.length →
    (readAll k m i acc).run c = (k (acc ++ (c.drop i).take m)).run c
  | 0, i, acc, c, _ => by simp [readAll]
  | m + 1, i, acc, c, h => by
    have hi : i < c.length := by omega
    rw [readAll, Prog.run, List.getElem?_eq_getElem hi]
    dsimp only
    rw [run_readAll k m (i + 1) _ c (by omega), List.drop_eq_getElem_cons hi, List.take_succ_cons]
    simp

theorem run_closureProg {n : ℕ} {f : List α → β → Option (List α)} (hf : KeepsLength n f) (x : β)
    (c : List α) (hc : c.length = n) : (closureProg n f x).run c = f c x := by
  rw [closureProg, run_readAll _ n 0 [] c (by omega)]
  simp only [List.nil_append, List.drop_zero, List.take_of_length_le (le_of_eq hc)]
  cases h : f c x with
  | none => rfl
  | some r =>
    have := hf c x r hc h
    rw [run_writeAll .done r 0 c (by omega)]
    simp [Prog.run, List.drop_eq_nil_of_le (show c.length ≤ r.length by omega)]

/-! ### some schedule exists -/

/-- Task `t` alone runs to its end. -/
theorem pool_run_task {n : ℕ} (t : ℕ) : ∀ (p : Prog α) (s : PoolState α), s.tasks[t]? = some p →
    t < s.mem.length / n →
    ∃ s', Relation.ReflTransGen (PoolStep n) s s' ∧
      (∀ u, u ≠ t → s'.tasks[u]? = s.tasks[u]?) ∧ s'.tasks.length = s.tasks.length ∧
      s'.mem.length = s.mem.length ∧
      (s'.tasks[t]? = some .done ∨ s'.tasks[t]? = some .panic)
  | .done, s, hp, _ => ⟨s, .refl, fun _ _ => rfl, rfl, rfl, .inl hp⟩
  | .panic, s, hp, _ => ⟨s, .refl, fun _ _ => rfl, rfl, rfl, .inr hp⟩
  | .read i k, s, hp, hl => by
    have htl := lt_of_getElem? hp
    by_cases hi : i < n
    · have hlt : t * n + i < s.mem.length := by
        have : (t + 1) * n ≤ s.mem.length / n * n := Nat.mul_le_mul_right n (by omega)
        have := Nat.div_mul_le_self s.mem.length n
        rw [Nat.add_mul] at *
        omega
      obtain ⟨s', h1, h2, h3, h4, h5⟩ := pool_run_task t (k s.mem[t * n + i])
        { s with tasks := s.tasks.set t (k s.mem[t * n + i]) }
        (by simp [htl]) hl
      refine ⟨s', .head (.read s t i k _ hp hi (List.getElem?_eq_getElem hlt)) h1, ?_, by simpa using h3, h4, h5⟩
      intro u hu
      rw [h2 u hu]
      simp [Ne.symm hu]
    · refine ⟨_, .single (.readPanic s t i k hp hi), ?_, by simp, rfl, .inr (by simp [htl])⟩
      intro u hu
      simp [Ne.symm hu]
  | .write i v k, s, hp, hl => by
    have htl := lt_of_getElem? hp
    by_cases hi : i < n
    · obtain ⟨s', h1, h2, h3, h4, h5⟩ := pool_run_task t k
        { mem := s.mem.set (t * n + i) v, tasks := s.tasks.set t k }
        (by simp [htl]) (by simpa using hl)
      refine ⟨s', .head (.write s t i v k hp hi) h1, ?_, by simpa using h3, by simpa using h4, h5⟩
      intro u hu
      rw [h2 u hu]
      simp [Ne.symm hu]
    · refine ⟨_, .single (.writePanic s t i v k hp hi), ?_, by simp, rfl, .inr (by simp [htl])⟩
      intro u hu
      simp [Ne.symm hu]

theorem pool_run_upto {n : ℕ} (s : PoolState α) (hT : s.tasks.length ≤ s.mem.length / n) :
    ∀ m, m ≤ s.tasks.length →
    ∃ s', Relation.ReflTransGen (PoolStep n) s s' ∧ s'.tasks.length = s.tasks.length ∧
      s'.mem.length = s.mem.length ∧
      ∀ t, t < m → (s'.tasks[t]? = some .done ∨ s'.tasks[t]? = some .panic)
  | 0, _ => ⟨s, .refl, rfl, rfl, by intro t ht; omega⟩
  | m + 1, hm => by
    obtain ⟨s1, h1, h2, h3, h4⟩ := pool_run_upto s hT m (by omega)
    have hm1 : m < s1.tasks.length := by omega
    obtain ⟨s2, g1, g2, g3, g4, g5⟩ := pool_run_task (n := n) m s1.tasks[m] s1 (List.getElem?_eq_getElem hm1)
      (by rw [h3]; omega)
    refine ⟨s2, h1.trans g1, by omega, by omega, ?_⟩
    intro t ht
    by_cases htm : t = m
    · subst htm; exact g5
    · rw [g2 t htm]; exact h4 t (by omega)

/-- Some schedule runs all tasks to the end (or to a panic). -/
theorem parOutcome_exists {n : ℕ} {f : List α → β → Option (List α)} {buf : List α} {xs : List β}
    (hf : KeepsLength n f) : ∃ out, ParOutcome n f buf xs out := by
  set ps := (xs.take (buf.length / n)).map (closureProg n f) with hps
  have hlen : ps.length = min (buf.length / n) xs.length := by simp [hps]
  obtain ⟨s, h1, h2, _, h4⟩ := pool_run_upto (n := n) ⟨buf, ps⟩ (by dsimp only; omega) ps.length (le_refl _)
  have himp : Implements n f buf.length xs ps := by
    refine ⟨hlen, ?_⟩
    intro t p x hp hx c hc
    have ht : t < buf.length / n := by
      have := lt_of_getElem? hp
      omega
    rw [hps, List.getElem?_map, List.getElem?_take, if_pos ht, hx] at hp
    simp only [Option.map_some, Option.some.injEq] at hp
    subst hp
    exact run_closureProg hf x c hc
  by_cases hpan : (.panic : Prog α) ∈ s.tasks
  · exact ⟨none, ps, s, himp, h1, .inr ⟨hpan, rfl⟩⟩
  · refine ⟨some s.mem, ps, s, himp, h1, .inl ⟨?_, rfl⟩⟩
    intro p hp
    obtain ⟨t, ht, e⟩ := List.getElem_of_mem hp
    have ht' : t < ps.length := by dsimp only at h2; omega
    rcases h4 t ht' with h | h
    · rw [List.getElem?_eq_getElem ht, e] at h
      simpa using h
    · exact absurd (List.mem_of_getElem? h) hpan

/-- The pool that runs the loop sequentially. -/
def seqPool : Pool := ⟨fun n f buf xs => updChunks n f buf xs⟩

theorem seqPool_valid : seqPool.Valid := by
  intro α β n f buf xs hn hf
  obtain ⟨out, h⟩ := parOutcome_exists (buf := buf) (xs := xs) hf
  have := parOutcome_unique hn h
  show ParOutcome n f buf xs (updChunks n f buf xs)
  rw [← this]
  exact h

theorem Pool.Valid.run_eq {E : Pool} (hE : E.Valid) {n : ℕ} {f : List α → β → Option (List α)}
    (hn : 0 < n) (hf : KeepsLength n f) (buf : List α) (xs : List β) :
    E.run n f buf xs = updChunks n f buf xs :=
  parOutcome_unique hn (hE n f buf xs hn hf)

end PicScale
