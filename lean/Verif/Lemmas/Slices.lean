import Verif.Model.Slices

namespace PicScale

theorem slice?_eq_some {α : Type _} {l : List α} {a b : Nat} (hab : a ≤ b) (hb : b ≤ l.length) :
    slice? l a b = some ((l.drop a).take (b - a)) := by
  simp [slice?, hab, hb]

theorem slice?_length {α : Type _} {l s : List α} {a b : Nat} (h : slice? l a b = some s) :
    s.length = b - a := by
  unfold slice? at h
  split at h
  · simp only [Option.some.injEq] at h
    subst h
    simp; omega
  · simp at h

theorem slice?_get {α : Type _} {l s : List α} {a b : Nat} (h : slice? l a b = some s) (i : Nat)
    (hi : i < b - a) : s[i]? = l[a + i]? := by
  unfold slice? at h
  split at h
  · simp only [Option.some.injEq] at h
    subst h
    rw [List.getElem?_take]
    simp [hi]
  · simp at h

@[simp] theorem chunksExact_length {α : Type _} (n : Nat) (l : List α) :
    (chunksExact n l).length = l.length / n := by
  simp [chunksExact]

theorem chunksExact_get {α : Type _} (n : Nat) (l : List α) (i : Nat) (h : i < l.length / n) :
    (chunksExact n l)[i]? = some ((l.drop (i * n)).take n) := by
  simp [chunksExact, h]

theorem chunk_length {α : Type _} {n : Nat} {l : List α} {i : Nat} (h : i < l.length / n) :
    ((l.drop (i * n)).take n).length = n := by
  have : (i + 1) * n ≤ l.length := by
    calc (i + 1) * n ≤ (l.length / n) * n := Nat.mul_le_mul_right n h
      _ ≤ l.length := Nat.div_mul_le_self _ _
  rw [Nat.add_mul] at this
  simp; omega

theorem chunk_get {α : Type _} {n : Nat} {l : List α} {i j : Nat} (hj : j < n) :
    ((l.drop (i * n)).take n)[j]? = l[i * n + j]? := by
  rw [List.getElem?_take]; simp [hj]

/-- General characterisation of `updChunks`: the `i`-th visited chunk becomes `g i`. -/
theorem updChunks_spec {α β : Type _} (n : Nat) (f : List α → β → Option (List α)) :
    ∀ (xs : List β) (buf : List α) (g : Nat → List α),
      xs.length * n ≤ buf.length →
      (∀ i (x : β), xs[i]? = some x → f ((buf.drop (i * n)).take n) x = some (g i)) →
      (∀ i, i < xs.length → (g i).length = n) →
      ∃ r, updChunks n f buf xs = some r ∧ r.length = buf.length ∧
        (∀ i j, i < xs.length → j < n → r[i * n + j]? = (g i)[j]?) ∧
        (∀ p, xs.length * n ≤ p → r[p]? = buf[p]?)
  | [], buf, g, _, _, _ => ⟨buf, rfl, rfl, by intro i j hi; simp at hi, by simp⟩
  | x :: xs, buf, g, hlen, hf, hg => by
    have hlen' : xs.length * n + n ≤ buf.length := by
      simpa [Nat.add_mul] using hlen
    have h0 : f (buf.take n) x = some (g 0) := by
      have := hf 0 x (by simp)
      simpa using this
    have hg0 : (g 0).length = n := hg 0 (by simp)
    obtain ⟨r, hr, hrl, hr1, hr2⟩ := updChunks_spec n f xs (buf.drop n) (fun i => g (i + 1))
      (by simp; omega)
      (by
        intro i y hy
        have := hf (i + 1) y (by simpa using hy)
        simpa [Nat.add_mul, Nat.add_comm] using this)
      (by intro i hi; exact hg (i + 1) (by simpa using hi))
    refine ⟨g 0 ++ r, ?_, ?_, ?_, ?_⟩
    · have : ¬ buf.length < n := by omega
      simp [updChunks, this, h0, hr]
    · simp [hg0, hrl]; omega
    · intro i j hi hj
      cases i with
      | zero => simp [List.getElem?_append, hg0, hj]
      | succ i =>
        have hi' : i < xs.length := by simpa using hi
        have : (i + 1) * n + j = n + (i * n + j) := by rw [Nat.add_mul]; omega
        rw [this, List.getElem?_append_right (by omega), hg0, Nat.add_sub_cancel_left]
        exact hr1 i j hi' hj
    · intro p hp
      have hp' : xs.length * n + n ≤ p := by simpa [Nat.add_mul] using hp
      rw [List.getElem?_append_right (by omega), hg0, hr2 (p - n) (by omega)]
      rw [List.getElem?_drop]
      congr 1; omega

@[simp] theorem overwrite_length {α : Type _} : ∀ (s d : List α), (overwrite s d).length = d.length
  | [], d => by simp [overwrite]
  | _ :: _, [] => by simp [overwrite]
  | s :: ss, d :: ds => by simp [overwrite, overwrite_length ss ds]

theorem overwrite_get {α : Type _} : ∀ (s d : List α) (i : Nat), i < d.length →
    (overwrite s d)[i]? = if i < s.length then s[i]? else d[i]?
  | [], d, i, _ => by simp [overwrite]
  | _ :: _, [], i, h => by simp at h
  | s :: ss, d :: ds, 0, _ => by simp [overwrite]
  | s :: ss, d :: ds, i + 1, h => by
    simp [overwrite]
    exact overwrite_get ss ds i (by simpa using h)

theorem writeAt?_eq_some {α : Type _} {l : List α} {a : Nat} {v : List α}
    (h : a + v.length ≤ l.length) :
    writeAt? l a v = some (l.take a ++ v ++ l.drop (a + v.length)) := by
  simp [writeAt?, h]

theorem writeAt?_spec {α : Type _} {l : List α} {a : Nat} {v : List α}
    (h : a + v.length ≤ l.length) :
    ∃ r, writeAt? l a v = some r ∧ r.length = l.length ∧
      (∀ j, j < v.length → r[a + j]? = v[j]?) ∧
      (∀ p, (p < a ∨ a + v.length ≤ p) → r[p]? = l[p]?) := by
  refine ⟨_, writeAt?_eq_some h, ?_, ?_, ?_⟩
  · simp; omega
  · intro j hj
    have h1 : (l.take a).length = a := by simp; omega
    rw [List.append_assoc, List.getElem?_append_right (by omega), h1, Nat.add_sub_cancel_left,
      List.getElem?_append_left hj]
  · intro p hp
    have h1 : (l.take a).length = a := by simp; omega
    rcases hp with hp | hp
    · rw [List.append_assoc, List.getElem?_append_left (by omega), List.getElem?_take]
      simp [hp]
    · rw [List.getElem?_append_right (by simp; omega), List.getElem?_drop]
      congr 1
      simp; omega

end PicScale
