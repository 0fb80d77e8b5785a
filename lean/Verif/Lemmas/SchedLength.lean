import Verif.Lemmas.Sched
import Verif.Model.Ar30

/-!
The closures run by the pool never change the length of their chunk (in Rust a `&mut [T]` cannot).
-/

namespace PicScale

variable {S A W α β γ : Type}

/-- If the computation does not panic, its result satisfies `P`. -/
def Post (o : Option α) (P : α → Prop) : Prop := ∀ r, o = some r → P r

theorem Post.pure {P : α → Prop} {a : α} (h : P a) : Post (some a) P := by
  intro r hr; simp only [Option.some.injEq] at hr; subst hr; exact h

theorem Post.nothing {P : α → Prop} : Post (none : Option α) P := by intro r hr; simp at hr

theorem Post.bind {o : Option β} {f : β → Option α} {P : α → Prop}
    (h : ∀ a, o = some a → Post (f a) P) : Post (o >>= f) P := by
  intro r hr
  cases o with
  | none => simp at hr
  | some a => exact h a rfl r (by simpa using hr)

theorem Post.bind' {o : Option β} {f : β → Option α} {P : α → Prop} {Q : β → Prop} (ho : Post o Q)
    (h : ∀ a, Q a → Post (f a) P) : Post (o >>= f) P :=
  Post.bind fun a ha => h a (ho a ha)

theorem Post.ite {c : Prop} [Decidable c] {o p : Option α} {P : α → Prop} (h1 : Post o P) (h2 : Post p P) :
    Post (if c then o else p) P := by
  split
  · exact h1
  · exact h2

theorem Post.mono {o : Option α} {P Q : α → Prop} (h : Post o P) (hPQ : ∀ a, P a → Q a) : Post o Q :=
  fun r hr => hPQ r (h r hr)

theorem Post.foldlM {f : α → β → Option α} {P : α → Prop} (hf : ∀ a b, P a → Post (f a b) P) :
    ∀ (l : List β) (a : α), P a → Post (l.foldlM f a) P
  | [], a, h => by simpa [List.foldlM] using Post.pure h
  | b :: l, a, h => by
    rw [List.foldlM_cons]
    exact Post.bind' (hf a b h) fun a' h' => Post.foldlM hf l a' h'

theorem Post.mapM {f : β → Option α} {P : α → Prop} (hf : ∀ b, Post (f b) P) :
    ∀ (l : List β), Post (l.mapM f) (fun r => ∀ a ∈ r, P a)
  | [] => by simpa [List.mapM_nil] using Post.pure (P := fun r : List α => ∀ a ∈ r, P a) (a := []) (by simp)
  | b :: l => by
    rw [List.mapM_cons]
    refine Post.bind' (hf b) fun a ha => Post.bind' (Post.mapM hf l) fun r hr => Post.pure ?_
    intro x hx
    rcases List.mem_cons.mp hx with rfl | hx
    · exact ha
    · exact hr x hx

theorem loadGroup_len {conv : S → A} {N : ℕ} {s : List S} {off : ℕ} :
    Post (loadGroup conv N s off) (fun r => r.length = N) := by
  intro r hr
  unfold loadGroup at hr
  split at hr
  · cases h : slice? s off (off + N) with
    | none => simp [h] at hr
    | some t =>
      have := slice?_length h
      simp only [h, Option.map_some, Option.some.injEq] at hr
      subst hr
      simp; omega
  · simp at hr

theorem groupFold_len {conv : S → A} {step : List A → List A → W → List A} {N : ℕ} {init : List A}
    (hinit : init.length = N)
    (hstep : ∀ a p w, a.length = N → p.length = N → (step a p w).length = N)
    {src : List S} {px size : ℕ} {weights : List W} :
    Post (groupFold conv step init N src px weights size) (fun r => r.length = N) := by
  unfold groupFold
  refine Post.bind fun s _ => ?_
  refine Post.foldlM (fun a b ha => ?_) _ _ hinit
  exact Post.bind' loadGroup_len fun p hp => Post.pure (hstep _ _ _ ha hp)

theorem groupFold4_len {conv : S → A} {step : List A → List A → W → List A} {N : ℕ} {init : List A}
    (hinit : init.length = N)
    (hstep : ∀ a p w, a.length = N → p.length = N → (step a p w).length = N)
    {src : List S} {ss px size : ℕ} {weights : List W} :
    Post (groupFold4 conv step init N src ss px weights size)
      (fun r => r.1.length = N ∧ r.2.1.length = N ∧ r.2.2.1.length = N ∧ r.2.2.2.length = N) := by
  unfold groupFold4
  refine Post.bind fun s0 _ => Post.bind fun s1 _ => Post.bind fun s2 _ => Post.bind fun s3 _ => ?_
  refine Post.foldlM (fun a b ha => ?_) _ _ ⟨hinit, hinit, hinit, hinit⟩
  refine Post.bind' loadGroup_len fun p0 h0 => Post.bind' loadGroup_len fun p1 h1 =>
    Post.bind' loadGroup_len fun p2 h2 => Post.bind' loadGroup_len fun p3 h3 => Post.pure ?_
  exact ⟨hstep _ _ _ ha.1 h0, hstep _ _ _ ha.2.1 h1, hstep _ _ _ ha.2.2.1 h2, hstep _ _ _ ha.2.2.2 h3⟩

/-- Loops over chunks keep the length if their body does. -/
theorem updChunks_len {n : ℕ} {f : List α → β → Option (List α)}
    (hf : ∀ c x, c.length = n → Post (f c x) (fun r => r.length = n)) :
    ∀ (xs : List β) (buf : List α), Post (updChunks n f buf xs) (fun r => r.length = buf.length)
  | [], buf => by simpa [updChunks] using Post.pure (P := fun r : List α => r.length = buf.length) rfl
  | x :: xs, buf => by
    unfold updChunks
    by_cases hb : buf.length < n
    · rw [if_pos hb]; exact Post.pure rfl
    · rw [if_neg hb]
      refine Post.bind' (hf (buf.take n) x (by simp; omega)) fun c hc =>
        Post.bind' (updChunks_len hf xs (buf.drop n)) fun r hr => Post.pure ?_
      simp [hc, hr]; omega

theorem updChunks4_len {n : ℕ} {f : β → Option (List α × List α × List α × List α)}
    (hf : ∀ x, Post (f x) (fun r => r.1.length = n ∧ r.2.1.length = n ∧ r.2.2.1.length = n ∧ r.2.2.2.length = n)) :
    ∀ (xs : List β) (d0 d1 d2 d3 : List α), Post (updChunks4 n f d0 d1 d2 d3 xs)
      (fun r => r.1.length = d0.length ∧ r.2.1.length = d1.length ∧ r.2.2.1.length = d2.length ∧
        r.2.2.2.length = d3.length)
  | [], d0, d1, d2, d3 => by
    unfold updChunks4
    exact Post.pure ⟨rfl, rfl, rfl, rfl⟩
  | x :: xs, d0, d1, d2, d3 => by
    unfold updChunks4
    by_cases hb : d0.length < n ∨ d1.length < n ∨ d2.length < n ∨ d3.length < n
    · rw [if_pos hb]; exact Post.pure ⟨rfl, rfl, rfl, rfl⟩
    · rw [if_neg hb]
      refine Post.bind' (hf x) fun c hc => ?_
      refine Post.bind' (updChunks4_len hf xs (d0.drop n) (d1.drop n) (d2.drop n) (d3.drop n)) fun r hr => Post.pure ?_
      simp only [List.length_drop] at hr
      obtain ⟨h1, h2, h3, h4⟩ := hc
      obtain ⟨g1, g2, g3, g4⟩ := hr
      simp only [List.length_append, h1, h2, h3, h4, g1, g2, g3, g4]
      omega

theorem writeAt?_len {l v : List α} {a : ℕ} : Post (writeAt? l a v) (fun r => r.length = l.length) := by
  intro r hr
  unfold writeAt? at hr
  split at hr
  · simp only [Option.some.injEq] at hr
    subst hr
    simp; omega
  · simp at hr

theorem whileBlocks_len {margin step total : ℕ} {body : ℕ → List α → Option (List α)}
    (hb : ∀ cx d, Post (body cx d) (fun r => r.length = d.length)) :
    ∀ (fuel cx : ℕ) (d : List α), Post (whileBlocks margin step total body fuel cx d)
      (fun r => r.2.length = d.length)
  | 0, cx, d => Post.pure rfl
  | fuel + 1, cx, d => by
    unfold whileBlocks
    refine Post.ite ?_ (Post.pure rfl)
    refine Post.bind' (hb cx d) fun d' hd' => ?_
    exact (whileBlocks_len hb fuel (cx + step) d').mono fun r hr => by rw [hr, hd']

theorem rowPass_len {N : ℕ} {pix : List W → Bounds → Option (List A)} {fin : A → S}
    (hp : ∀ w b, Post (pix w b) (fun r => r.length = N)) {dst : List S} {fw : FilterWeights W} :
    Post (rowPass N pix fin dst fw) (fun r => r.length = dst.length) := by
  unfold rowPass
  refine updChunks_len (fun c x _ => ?_) _ _
  exact Post.bind' (hp _ _) fun s hs => Post.pure (by simpa using hs)

theorem rows4Pass_len {N : ℕ} {pix4 : List W → Bounds → Option (List A × List A × List A × List A)} {fin : A → S}
    (hp : ∀ w b, Post (pix4 w b)
      (fun r => r.1.length = N ∧ r.2.1.length = N ∧ r.2.2.1.length = N ∧ r.2.2.2.length = N))
    {dst : List S} {ds : ℕ} {fw : FilterWeights W} :
    Post (rows4Pass N pix4 fin dst ds fw) (fun r => r.length = dst.length) := by
  unfold rows4Pass
  refine Post.bind fun r0 h0 => Post.bind fun r1 h1 => Post.bind fun r2 h2 => Post.bind fun r3 h3 => ?_
  have g3 := slice?_length h3
  have g0 := slice?_length h0
  have g1 := slice?_length h1
  have g2 := slice?_length h2
  have hle : ds * 3 ≤ dst.length := by
    unfold slice? at h3
    split at h3
    · rename_i h; exact h.1
    · simp at h3
  refine Post.bind' (updChunks4_len (n := N) (fun x => ?_) _ r0 r1 r2 r3) fun r hr => Post.pure ?_
  · refine Post.bind' (hp _ _) fun s hs => Post.pure ?_
    simpa using hs
  · obtain ⟨e0, e1, e2, e3⟩ := hr
    simp only [List.length_append, e0, e1, e2, e3]
    omega

theorem cgAdd_len {a b : List ℤ} {N : ℕ} (ha : a.length = N) (hb : b.length = N) : (cgAdd a b).length = N := by
  simp [cgAdd, ha, hb]

theorem cgMul_len {a : List ℤ} {w : ℤ} {N : ℕ} (ha : a.length = N) : (cgMul a w).length = N := by
  simp [cgMul, ha]

theorem rowPixelSums_len {N : ℕ} {src : List ℕ} {base : ℕ} (weights : List ℤ) (b : Bounds) :
    Post (rowPixelSums N src base weights b) (fun r => r.length = N) := by
  unfold rowPixelSums
  refine Post.ite ?_ (Post.ite ?_ (Post.ite ?_ (Post.ite ?_ ?_)))
  · refine Post.bind fun s _ => Post.bind fun ws _ => Post.bind fun w0 _ => Post.bind fun w1 _ =>
      Post.bind' loadGroup_len fun p0 h0 => Post.bind' loadGroup_len fun p1 h1 => Post.pure ?_
    simp [cgAdd, cgMul, h0, h1]
  · refine Post.bind fun s _ => Post.bind fun ws _ => Post.bind fun w0 _ => Post.bind fun w1 _ =>
      Post.bind fun w2 _ =>
      Post.bind' loadGroup_len fun p0 h0 => Post.bind' loadGroup_len fun p1 h1 =>
      Post.bind' loadGroup_len fun p2 h2 => Post.pure ?_
    simp [cgAdd, cgMul, h0, h1, h2]
  · refine Post.bind fun s _ => Post.bind fun ws _ => Post.bind fun w0 _ => Post.bind fun w1 _ =>
      Post.bind fun w2 _ => Post.bind fun w3 _ =>
      Post.bind' loadGroup_len fun p0 h0 => Post.bind' loadGroup_len fun p1 h1 =>
      Post.bind' loadGroup_len fun p2 h2 => Post.bind' loadGroup_len fun p3 h3 => Post.pure ?_
    simp [cgAdd, cgMul, h0, h1, h2, h3]
  · refine Post.bind fun s _ => Post.bind fun ws _ => Post.bind fun w0 _ => Post.bind fun w1 _ =>
      Post.bind fun w2 _ => Post.bind fun w3 _ => Post.bind fun w4 _ => Post.bind fun w5 _ =>
      Post.bind' loadGroup_len fun p0 h0 => Post.bind' loadGroup_len fun p1 h1 =>
      Post.bind' loadGroup_len fun p2 h2 => Post.bind' loadGroup_len fun p3 h3 =>
      Post.bind' loadGroup_len fun p4 h4 => Post.bind' loadGroup_len fun p5 h5 => Post.pure ?_
    simp [cgAdd, cgMul, h0, h1, h2, h3, h4, h5]
  · exact groupFold_len (by simp) fun a p w ha hp => cgAdd_len ha (cgMul_len hp)

theorem rowFixed_len {N hi : ℕ} {src dst : List ℕ} {fw : FilterWeights ℤ} :
    Post (rowFixed N hi src dst fw) (fun r => r.length = dst.length) :=
  rowPass_len rowPixelSums_len

theorem rows4PixelSums_len {N : ℕ} {src : List ℕ} {ss : ℕ} (weights : List ℤ) (b : Bounds) :
    Post (rows4PixelSums N src ss weights b)
      (fun r => r.1.length = N ∧ r.2.1.length = N ∧ r.2.2.1.length = N ∧ r.2.2.2.length = N) := by
  unfold rows4PixelSums
  refine Post.ite ?_ ?_
  · refine Post.bind' (rowPixelSums_len _ _) fun s0 h0 => Post.bind' (rowPixelSums_len _ _) fun s1 h1 =>
      Post.bind' (rowPixelSums_len _ _) fun s2 h2 => Post.bind' (rowPixelSums_len _ _) fun s3 h3 => Post.pure ?_
    exact ⟨h0, h1, h2, h3⟩
  · exact groupFold4_len (by simp) fun a p w ha hp => cgAdd_len ha (cgMul_len hp)

theorem rows4Fixed_len {N hi : ℕ} {src dst : List ℕ} {ss ds : ℕ} {fw : FilterWeights ℤ} :
    Post (rows4Fixed N hi src ss dst ds fw) (fun r => r.length = dst.length) :=
  rows4Pass_len rows4PixelSums_len

theorem columnBlock_len {R B hi : ℕ} {src : List ℕ} {ss : ℕ} {filter : List ℤ} {b : Bounds} (x : ℕ) (dst : List ℕ) :
    Post (columnBlock R B hi src ss filter b x dst) (fun r => r.length = dst.length) := by
  unfold columnBlock
  cases filter with
  | nil => exact Post.pure rfl
  | cons w ws =>
    refine Post.bind fun st _ => Post.bind fun st2 _ => ?_
    exact Post.foldlM (fun a b ha => writeAt?_len.mono fun r hr => by rw [hr, ha]) _ _ rfl

theorem columnFixed_len {hi : ℕ} {b : Bounds} {src dst : List ℕ} {ss : ℕ} {w : List ℤ} :
    Post (columnFixed hi b src dst ss w) (fun r => r.length = dst.length) := by
  unfold columnFixed
  refine Post.bind' (whileBlocks_len columnBlock_len _ _ _) fun a ha =>
    Post.bind' (whileBlocks_len columnBlock_len _ _ _) fun c hc =>
    Post.bind' (whileBlocks_len columnBlock_len _ _ _) fun d hd =>
    Post.bind' (whileBlocks_len columnBlock_len _ _ _) fun e he =>
    Post.bind' (whileBlocks_len columnBlock_len _ _ _) fun f hf => Post.pure ?_
  rw [hf, he, hd, hc, ha]

/-! ### floating point -/

theorem gMla_len {o : FloatOps S A} {a g : List A} {w : ℚ} {N : ℕ} (ha : a.length = N) (hg : g.length = N) :
    (o.gMla a g w).length = N := by
  simp [FloatOps.gMla, ha, hg]

theorem rowPixelSumsF_len {o : FloatOps S A} {N : ℕ} {src : List S} {base : ℕ} (weights : List ℚ) (b : Bounds) :
    Post (rowPixelSumsF o N src base weights b) (fun r => r.length = N) := by
  unfold rowPixelSumsF
  refine Post.ite ?_ (Post.ite ?_ (Post.ite ?_ (Post.ite ?_ ?_)))
  · refine Post.bind fun s _ => Post.bind fun ws _ => Post.bind fun w0 _ => Post.bind fun w1 _ =>
      Post.bind' loadGroup_len fun p0 h0 => Post.bind' loadGroup_len fun p1 h1 => Post.pure ?_
    simp [FloatOps.gMla, FloatOps.gMul, h0, h1]
  · refine Post.bind fun s _ => Post.bind fun ws _ => Post.bind fun w0 _ => Post.bind fun w1 _ =>
      Post.bind fun w2 _ =>
      Post.bind' loadGroup_len fun p0 h0 => Post.bind' loadGroup_len fun p1 h1 =>
      Post.bind' loadGroup_len fun p2 h2 => Post.pure ?_
    simp [FloatOps.gMla, FloatOps.gMul, h0, h1, h2]
  · refine Post.bind fun s _ => Post.bind fun ws _ => Post.bind fun w0 _ => Post.bind fun w1 _ =>
      Post.bind fun w2 _ => Post.bind fun w3 _ =>
      Post.bind' loadGroup_len fun p0 h0 => Post.bind' loadGroup_len fun p1 h1 =>
      Post.bind' loadGroup_len fun p2 h2 => Post.bind' loadGroup_len fun p3 h3 => Post.pure ?_
    simp [FloatOps.gMla, FloatOps.gMul, h0, h1, h2, h3]
  · refine Post.bind fun s _ => Post.bind fun ws _ => Post.bind fun w0 _ => Post.bind fun w1 _ =>
      Post.bind fun w2 _ => Post.bind fun w3 _ => Post.bind fun w4 _ => Post.bind fun w5 _ =>
      Post.bind' loadGroup_len fun p0 h0 => Post.bind' loadGroup_len fun p1 h1 =>
      Post.bind' loadGroup_len fun p2 h2 => Post.bind' loadGroup_len fun p3 h3 =>
      Post.bind' loadGroup_len fun p4 h4 => Post.bind' loadGroup_len fun p5 h5 => Post.pure ?_
    simp [FloatOps.gMla, FloatOps.gMul, h0, h1, h2, h3, h4, h5]
  · exact groupFold_len (by simp) fun a p w ha hp => gMla_len ha hp

theorem rowFloat_len {o : FloatOps S A} {N : ℕ} {src dst : List S} {fw : FilterWeights ℚ} :
    Post (rowFloat o N src dst fw) (fun r => r.length = dst.length) :=
  rowPass_len rowPixelSumsF_len

theorem rows4PixelSumsF_len {o : FloatOps S A} {N : ℕ} {src : List S} {ss : ℕ} (weights : List ℚ) (b : Bounds) :
    Post (rows4PixelSumsF o N src ss weights b)
      (fun r => r.1.length = N ∧ r.2.1.length = N ∧ r.2.2.1.length = N ∧ r.2.2.2.length = N) := by
  unfold rows4PixelSumsF
  refine Post.ite ?_ ?_
  · refine Post.bind' (rowPixelSumsF_len _ _) fun s0 h0 => Post.bind' (rowPixelSumsF_len _ _) fun s1 h1 =>
      Post.bind' (rowPixelSumsF_len _ _) fun s2 h2 => Post.bind' (rowPixelSumsF_len _ _) fun s3 h3 => Post.pure ?_
    exact ⟨h0, h1, h2, h3⟩
  · exact groupFold4_len (by simp) fun a p w ha hp => gMla_len ha hp

theorem rows4Float_len {o : FloatOps S A} {N : ℕ} {src dst : List S} {ss ds : ℕ} {fw : FilterWeights ℚ} :
    Post (rows4Float o N src ss dst ds fw) (fun r => r.length = dst.length) :=
  rows4Pass_len rows4PixelSumsF_len

theorem columnBlockF_len {o : FloatOps S A} {N R : ℕ} {src : List S} {ss : ℕ} {filter : List ℚ} {b : Bounds}
    (x : ℕ) (dst : List S) :
    Post (columnBlockF o N R src ss filter b x dst) (fun r => r.length = dst.length) := by
  unfold columnBlockF
  refine Post.bind fun st _ => ?_
  exact Post.foldlM (fun a b ha => writeAt?_len.mono fun r hr => by rw [hr, ha]) _ _ rfl

theorem columnFloat_len {o : FloatOps S A} {b : Bounds} {src dst : List S} {ss : ℕ} {w : List ℚ} :
    Post (columnFloat o b src dst ss w) (fun r => r.length = dst.length) := by
  unfold columnFloat
  refine Post.bind' (whileBlocks_len columnBlockF_len _ _ _) fun a ha =>
    Post.bind' (whileBlocks_len columnBlockF_len _ _ _) fun c hc =>
    Post.bind' (whileBlocks_len columnBlockF_len _ _ _) fun d hd => Post.pure ?_
  rw [hd, hc, ha]

/-! ### nearest, alpha -/

theorem nearestRow_len {ρ : ℚ → ℚ} {N : ℕ} {src : List S} {srcW srcH dstW dstH y : ℕ} {row : List S} :
    Post (nearestRow ρ N src srcW srcH dstW dstH y row) (fun r => r.length = row.length) := by
  unfold nearestRow
  refine updChunks_len (fun c x hc => ?_) _ _
  refine Post.bind fun s _ => Post.pure ?_
  rw [overwrite_length, hc]

/-- A pixel operation that stores four samples. -/
def PixelOp4 (op : List S → Option (List S)) : Prop := ∀ p, Post (op p) (fun r => r.length = 4)

theorem pixelOp_len {col : S → S → S} {alp : S → S} : PixelOp4 (pixelOp col alp) := by
  intro p r hr
  unfold pixelOp at hr
  split at hr
  · simp only [Option.some.injEq] at hr
    subst hr; rfl
  · simp at hr

theorem alphaRow_len {op : List S → Option (List S)} (hop : PixelOp4 op) {dst src : List S} :
    Post (alphaRow op dst src) (fun r => r.length = dst.length) :=
  updChunks_len (fun _ x _ => hop x) _ _

theorem alphaRowInPlace_len {op : List S → Option (List S)} (hop : PixelOp4 op) {row : List S} :
    Post (alphaRowInPlace op row) (fun r => r.length = row.length) :=
  updChunks_len (fun c _ _ => hop c) _ _

theorem slice_prefix_len {l s r : List S} {k : ℕ} (h : slice? l 0 k = some s) (hr : r.length = s.length) :
    (r ++ l.drop k).length = l.length := by
  have := slice?_length h
  have hk : k ≤ l.length := by
    unfold slice? at h
    by_contra hc
    rw [if_neg (by omega)] at h
    simp at h
  simp; omega

/-! ### packed 10 bit -/

theorem store30_len {F : Fmt30} {sums : List ℤ} : (store30 F sums).length = 4 := by
  unfold store30 toNeBytes
  split <;> rfl

theorem row30_len {F : Fmt30} {src dst : List ℕ} {fw : FilterWeights ℤ} :
    Post (row30 F src dst fw) (fun r => r.length = dst.length) := by
  unfold row30
  refine updChunks_len (fun c x _ => ?_) _ _
  exact Post.bind fun s _ => Post.pure store30_len

theorem rows4_30_len {F : Fmt30} {src dst : List ℕ} {ss ds : ℕ} {fw : FilterWeights ℤ} :
    Post (rows4_30 F src ss dst ds fw) (fun r => r.length = dst.length) := by
  unfold rows4_30
  refine Post.bind fun r0 h0 => Post.bind fun r1 h1 => Post.bind fun r2 h2 => Post.bind fun r3 h3 => ?_
  have g3 := slice?_length h3
  have g0 := slice?_length h0
  have g1 := slice?_length h1
  have g2 := slice?_length h2
  have hle : ds * 3 ≤ dst.length := by
    unfold slice? at h3
    split at h3
    · rename_i h; exact h.1
    · simp at h3
  refine Post.bind' (updChunks4_len (n := 4) (fun x => ?_) _ r0 r1 r2 r3) fun r hr => Post.pure ?_
  · exact Post.bind fun s _ => Post.pure ⟨store30_len, store30_len, store30_len, store30_len⟩
  · obtain ⟨e0, e1, e2, e3⟩ := hr
    simp only [List.length_append, e0, e1, e2, e3]
    omega

theorem columnBlock30_len {F : Fmt30} {R B : ℕ} {src : List ℕ} {ss : ℕ} {filter : List ℤ} {b : Bounds} (x : ℕ)
    (dst : List ℕ) : Post (columnBlock30 F R B src ss filter b x dst) (fun r => r.length = dst.length) := by
  unfold columnBlock30
  cases filter with
  | nil => exact Post.pure rfl
  | cons w ws =>
    refine Post.bind fun st _ => Post.bind fun st2 _ => ?_
    exact Post.foldlM (fun a b ha => writeAt?_len.mono fun r hr => by rw [hr, ha]) _ _ rfl

theorem column30_len {F : Fmt30} {b : Bounds} {src dst : List ℕ} {ss : ℕ} {w : List ℤ} :
    Post (column30 F b src dst ss w) (fun r => r.length = dst.length) := by
  unfold column30
  refine Post.bind' (whileBlocks_len columnBlock30_len _ _ _) fun a ha =>
    Post.bind' (whileBlocks_len columnBlock30_len _ _ _) fun c hc =>
    Post.bind' (whileBlocks_len columnBlock30_len _ _ _) fun d hd =>
    Post.bind' (whileBlocks_len columnBlock30_len _ _ _) fun e he =>
    Post.bind' (whileBlocks_len columnBlock30_len _ _ _) fun f hf => Post.pure ?_
  rw [hf, he, hd, hc, ha]

/-! ### the dispatchers -/

theorem horizontalDispatchPar_eq {E : Pool} (hE : E.Valid) {N : ℕ} {src dst : Image S} (hd : 0 < dst.strideOf N)
    {h4 : Option (List S → ℕ → List S → ℕ → Option (List S))} {h1 : List S → List S → Option (List S)}
    (l4 : ∀ f, h4 = some f → ∀ s ss d ds, Post (f s ss d ds) (fun r => r.length = d.length))
    (l1 : ∀ s d, Post (h1 s d) (fun r => r.length = d.length)) :
    horizontalDispatchPar E N src dst h4 h1 = horizontalDispatch N src dst h4 h1 := by
  unfold horizontalDispatchPar horizontalDispatch
  have k1 : KeepsLength (dst.strideOf N) (fun d s => h1 s d) := by
    intro c x r hc hr
    rw [l1 x c r hr, hc]
  cases h4 with
  | none => simp only [hE.run_eq hd k1]
  | some f =>
    have k4 : KeepsLength (dst.strideOf N * 4) (fun d s => f s (src.strideOf N) d (dst.strideOf N)) := by
      intro c x r hc hr
      rw [l4 f rfl x _ c _ r hr, hc]
    simp only [hE.run_eq (show 0 < dst.strideOf N * 4 by omega) k4, hE.run_eq hd k1]

theorem verticalDispatchPar_eq {E : Pool} (hE : E.Valid) {N : ℕ} {src dst : Image S} (hd : 0 < dst.strideOf N)
    {bounds : List Bounds} {al : ℕ} {weights : List W}
    {handler : Bounds → List S → List S → ℕ → List W → Option (List S)}
    (lh : ∀ b s d ss w, Post (handler b s d ss w) (fun r => r.length = d.length)) :
    verticalDispatchPar E N src dst bounds al weights handler =
      verticalDispatch N src dst bounds al weights handler := by
  unfold verticalDispatchPar verticalDispatch
  dsimp only
  rw [hE.run_eq hd]
  intro c x r hc hr
  have : Post (do
      let b ← bounds[x]?
      let w ← slice? weights (x * al) weights.length
      let part ← slice? c 0 (dst.width * N)
      let r ← handler b src.buffer part (src.strideOf N) w
      some (r ++ c.drop (dst.width * N))) (fun r => r.length = c.length) := by
    refine Post.bind fun b _ => Post.bind fun w _ => Post.bind fun part hp =>
      Post.bind' (lh _ _ _ _ _) fun q hq => Post.pure (slice_prefix_len hp hq)
  rw [this r hr, hc]

theorem resizeNearestPar_eq {E : Pool} (hE : E.Valid) {ρ : ℚ → ℚ} {N : ℕ} {src : List S} {srcW srcH : ℕ}
    {dst : List S} {dstW dstH : ℕ} (h : 0 < dstW * N) :
    resizeNearestPar E ρ N src srcW srcH dst dstW dstH = resizeNearest ρ N src srcW srcH dst dstW dstH := by
  unfold resizeNearestPar resizeNearest
  refine hE.run_eq h ?_ _ _
  intro c x r hc hr
  rw [nearestRow_len r hr, hc]

theorem premultiplyImagePar_eq {E : Pool} (hE : E.Valid) {op : List S → Option (List S)} (hop : PixelOp4 op)
    {src dst : Image S} (hd : 0 < dst.strideOf 4) :
    premultiplyImagePar E op src dst = premultiplyImage op src dst := by
  unfold premultiplyImagePar premultiplyImage premultiplyImageWith alphaRowsWith
  rw [hE.run_eq hd]
  intro c x r hc hr
  have : Post (do
      let d ← slice? c 0 (src.width * 4)
      let s ← slice? x 0 (src.width * 4)
      let r ← alphaRow op d s
      some (r ++ c.drop (src.width * 4))) (fun r => r.length = c.length) := by
    refine Post.bind fun d hd => Post.bind fun s _ => Post.bind' (alphaRow_len hop) fun q hq =>
      Post.pure (slice_prefix_len hd hq)
  rw [this r hr, hc]

theorem unpremultiplyImagePar_eq {E : Pool} (hE : E.Valid) {op : List S → Option (List S)} (hop : PixelOp4 op)
    {img : Image S} (hd : 0 < img.strideOf 4) :
    unpremultiplyImagePar E op img = unpremultiplyImage op img := by
  unfold unpremultiplyImagePar unpremultiplyImage unpremultiplyImageWith alphaRowsInPlaceWith
  rw [hE.run_eq hd]
  intro c x r hc hr
  have : Post (do
      let d ← slice? c 0 (img.width * 4)
      let r ← alphaRowInPlace op d
      some (r ++ c.drop (img.width * 4))) (fun r => r.length = c.length) := by
    refine Post.bind fun d hd => Post.bind' (alphaRowInPlace_len hop) fun q hq =>
      Post.pure (slice_prefix_len hd hq)
  rw [this r hr, hc]

end PicScale
