import Verif.SpecCApi
import Verif.Lemmas.SchedResize

/-!
Lengths of destination buffers, and reading/writing encoded sample arrays.
-/

namespace PicScale

variable {S : Type}

/-- Passes keep the number of samples of the destination. -/
structure LenKept (F : Format S) : Prop where
  vert : ∀ src dst fw, Post (F.vertical src dst fw) (fun d => d.buffer.length = dst.buffer.length)
  horz : ∀ src dst fw, Post (F.horizontal src dst fw) (fun d => d.buffer.length = dst.buffer.length)

theorem horizontalDispatch_len {N : ℕ} {src dst : Image S}
    {h4 : Option (List S → ℕ → List S → ℕ → Option (List S))} {h1 : List S → List S → Option (List S)}
    (l4 : ∀ f, h4 = some f → ∀ s ss d ds, Post (f s ss d ds) (fun r => r.length = d.length))
    (l1 : ∀ s d, Post (h1 s d) (fun r => r.length = d.length)) :
    Post (horizontalDispatch N src dst h4 h1) (fun d => d.buffer.length = dst.buffer.length) := by
  unfold horizontalDispatch
  cases h4 with
  | none =>
    exact Post.bind' (updChunks_len (fun c x hc => (l1 x c).mono fun r hr => by rw [hr, hc]) _ _) fun d hd => Post.pure hd
  | some f =>
    refine Post.bind' (updChunks_len (fun c x hc => (l4 f rfl _ _ c _).mono fun r hr => by rw [hr, hc]) _ _) fun d hd =>
      Post.bind' (updChunks_len (fun c x hc => (l1 x c).mono fun r hr => by rw [hr, hc]) _ _) fun r hr => Post.pure ?_
    dsimp only
    rw [← hd, List.length_append, List.length_take, hr]
    unfold chunksRemainder
    rw [List.length_drop]
    have := Nat.div_mul_le_self d.length (dst.strideOf N * 4)
    omega

theorem verticalDispatch_len {W : Type} {N : ℕ} {src dst : Image S} {bounds : List Bounds} {al : ℕ} {weights : List W}
    {handler : Bounds → List S → List S → ℕ → List W → Option (List S)}
    (lh : ∀ b s d ss w, Post (handler b s d ss w) (fun r => r.length = d.length)) :
    Post (verticalDispatch N src dst bounds al weights handler)
      (fun d => d.buffer.length = dst.buffer.length) := by
  unfold verticalDispatch
  refine Post.bind' (updChunks_len (fun c x hc => ?_) _ _) fun d hd => Post.pure hd
  refine Post.bind fun b _ => Post.bind fun w _ => Post.bind fun part hp =>
    Post.bind' (lh _ _ _ _ _) fun q hq => Post.pure ?_
  rw [slice_prefix_len hp hq, hc]

theorem lenKept_format (t : PixelTy) (N : ℕ) : LenKept (t.format N) := by
  have l4 : ∀ hi q (f : List ℕ → ℕ → List ℕ → ℕ → Option (List ℕ)),
      (some fun s ss d ds => rows4Fixed N hi s ss d ds q) = some f →
      ∀ s ss d ds, Post (f s ss d ds) (fun r => r.length = d.length) := by
    intro hi q f hf s ss d ds
    simp only [Option.some.injEq] at hf
    subst hf
    exact rows4Fixed_len
  have m4 : ∀ {S A : Type} (o : FloatOps S A) q (f : List S → ℕ → List S → ℕ → Option (List S)),
      (some fun s ss d ds => rows4Float o N s ss d ds q) = some f →
      ∀ s ss d ds, Post (f s ss d ds) (fun r => r.length = d.length) := by
    intro S A o q f hf s ss d ds
    simp only [Option.some.injEq] at hf
    subst hf
    exact rows4Float_len
  cases t with
  | u8 =>
    refine ⟨fun src dst fw => ?_, fun src dst fw => ?_⟩
    · exact verticalDispatch_len fun _ _ _ _ _ => columnFixed_len
    · exact horizontalDispatch_len (l4 _ _) fun _ _ => rowFixed_len
  | f32 fused =>
    refine ⟨fun src dst fw => ?_, fun src dst fw => ?_⟩
    · exact verticalDispatch_len fun _ _ _ _ _ => columnFloat_len
    · exact horizontalDispatch_len (m4 _ _) fun _ _ => rowFloat_len
  | u16 fused =>
    refine ⟨fun src dst fw => ?_, fun src dst fw => ?_⟩
    · simp only [PixelTy.format, formatU16]
      exact Post.ite (verticalDispatch_len fun _ _ _ _ _ => columnFloat_len)
        (verticalDispatch_len fun _ _ _ _ _ => columnFixed_len)
    · simp only [PixelTy.format, formatU16]
      exact Post.ite (horizontalDispatch_len (m4 _ _) fun _ _ => rowFloat_len)
        (horizontalDispatch_len (l4 _ _) fun _ _ => rowFixed_len)

theorem convolve_len {W N : ℕ} {F : Format S} (hg : LenKept F)
    {table : ℕ → ℕ → Option (FilterWeights ℚ)} {store into : Image S} :
    Post (convolve W N F table store into) (fun d => d.buffer.length = into.buffer.length) := by
  unfold convolve
  refine Post.ite ?_ (Post.ite ?_ ?_)
  · exact Post.bind fun tmp _ => Post.bind fun vf _ => Post.bind fun t _ => Post.bind fun hf _ => hg.horz _ _ _
  · exact Post.bind fun vf _ => hg.vert _ _ _
  · exact Post.bind fun vf _ => hg.horz _ _ _

theorem copiedToMut_len {N : ℕ} {store into : Image S} :
    Post (store.copiedToMut N into) (fun d => d.buffer.length = into.buffer.length) := by
  unfold Image.copiedToMut
  refine Post.bind' (updChunks_len (fun c x hc => Post.pure ?_) _ _) fun d hd => Post.pure hd
  rw [overwrite_length, hc]

theorem resizeByNearest_len {N : ℕ} {store into : Image S} :
    Post (resizeByNearest N store into) (fun d => d.buffer.length = into.buffer.length) := by
  unfold resizeByNearest resizeNearest
  refine Post.bind' (updChunks_len (fun c x hc => nearestRow_len.mono fun r hr => by rw [hr, hc]) _ _) fun d hd => Post.pure hd

/-- The call's result has as many samples as the destination had. -/
theorem genericResize_len {W N : ℕ} {F : Format S} (hg : LenKept F) {L : Lib} {r : ResamplingFunction}
    {store into : Image S} :
    Post (genericResize W N F L r store into) (fun d => d.2.buffer.length = into.buffer.length) := by
  unfold genericResize
  split
  · exact Post.pure rfl
  · refine Post.ite ?_ (Post.ite ?_ ?_)
    · exact Post.bind' copiedToMut_len fun d hd => Post.pure hd
    · exact Post.bind' resizeByNearest_len fun d hd => Post.pure hd
    · exact Post.bind' (convolve_len hg) fun d hd => Post.pure hd

theorem unpremultiplyImage_len {op : List S → Option (List S)} (hop : PixelOp4 op) {img : Image S} :
    Post (unpremultiplyImage op img) (fun d => d.buffer.length = img.buffer.length) := by
  unfold unpremultiplyImage unpremultiplyImageWith alphaRowsInPlaceWith
  refine Post.bind' (updChunks_len (fun c x hc => ?_) _ _) fun d hd => Post.pure hd
  refine Post.bind fun d hd => Post.bind' (alphaRowInPlace_len hop) fun q hq => Post.pure ?_
  rw [slice_prefix_len hd hq, hc]

theorem unpremultiply_len (t : PixelTy) (bits : ℚ → ℕ) (img : Image t.Sample) :
    Post ((t.alpha bits).unpremultiply img) (fun d => d.buffer.length = img.buffer.length) := by
  cases t with
  | u8 => exact unpremultiplyImage_len pixelOp_len
  | u16 fused => exact unpremultiplyImage_len pixelOp_len
  | f32 fused => exact unpremultiplyImage_len pixelOp_len

theorem genericResizeWithAlpha_len {W : ℕ} {t : PixelTy} {bits : ℚ → ℕ} {L : Lib} {r : ResamplingFunction}
    {store into : Image t.Sample} {req : Bool} :
    Post (genericResizeWithAlpha W 4 (t.format 4) (t.alpha bits) L r store into req)
      (fun d => d.2.buffer.length = into.buffer.length) := by
  unfold genericResizeWithAlpha
  split
  · exact Post.pure rfl
  · refine Post.ite ?_ (Post.ite ?_ ?_)
    · exact Post.bind' copiedToMut_len fun d hd => Post.pure hd
    · exact Post.bind' resizeByNearest_len fun d hd => Post.pure hd
    · refine Post.bind fun src _ => Post.bind' (convolve_len (lenKept_format t 4)) fun d hd => Post.ite ?_ (Post.pure hd)
      exact Post.bind' (unpremultiply_len t bits d) fun e he => Post.pure (he.trans hd)

/-! ### encoded arrays -/

theorem flatMap_enc_length {f : S → List ℕ} {k : ℕ} (h : ∀ a, (f a).length = k) (l : List S) :
    (l.flatMap f).length = l.length * k := by
  induction l with
  | nil => simp
  | cons a t ih => simp [ih, h]; ring

theorem flatMap_enc_drop {f : S → List ℕ} {k : ℕ} (h : ∀ a, (f a).length = k) (l : List S) (i : ℕ) (rest : List ℕ) :
    (l.flatMap f ++ rest).drop (i * k) = if i ≤ l.length then (l.drop i).flatMap f ++ rest else rest.drop (i * k - l.length * k) := by
  induction l generalizing i with
  | nil =>
    rcases i with _ | i
    · simp
    · simp
  | cons a t ih =>
    rcases i with _ | i
    · simp
    · have e : (i + 1) * k = k + i * k := by ring
      rw [List.flatMap_cons, List.append_assoc, e, ← List.drop_drop, List.drop_left' (h a), ih]
      simp only [List.length_cons, List.drop_succ_cons]
      by_cases hi : i ≤ t.length
      · rw [if_pos hi, if_pos (by omega)]
      · rw [if_neg hi, if_neg (by omega)]
        congr 1
        rw [Nat.add_mul]; omega

theorem readAt_enc {R : MemRepr S} (hl : ∀ a, (R.enc a).length = R.size) {l : List S} {i : ℕ} {rest : List ℕ}
    (hi : i < l.length) (hd : R.dec (R.enc l[i]) = l[i]) :
    readAt R (l.flatMap R.enc ++ rest) (i * R.size) = some l[i] := by
  unfold readAt slice?
  have hlen : (l.flatMap R.enc ++ rest).length = l.length * R.size + rest.length := by
    rw [List.length_append, flatMap_enc_length hl]
  have hle : (i + 1) * R.size ≤ l.length * R.size := Nat.mul_le_mul_right _ hi
  rw [Nat.add_mul, Nat.one_mul] at hle
  rw [if_pos ⟨by omega, by omega⟩, flatMap_enc_drop hl, if_pos hi.le, List.drop_eq_getElem_cons hi,
    List.flatMap_cons, List.append_assoc, Nat.add_sub_cancel_left, List.take_left' (hl _)]
  simp [hd]

theorem mapM_range_getElem {f : ℕ → Option S} {l : List S} (h : ∀ i (hi : i < l.length), f i = some l[i]) :
    (List.range l.length).mapM f = some l := by
  induction l using List.reverseRecOn with
  | nil => rfl
  | append_singleton l a ih =>
    rw [List.length_append, List.length_singleton, List.range_succ, List.mapM_append,
      ih fun i hi => by rw [h i (by simp; omega), List.getElem_append_left hi]]
    have := h l.length (by simp)
    simp only [List.getElem_concat_length] at this
    simp [this]

theorem fromRawParts_enc {R : MemRepr S} (hl : ∀ a, (R.enc a).length = R.size) {l : List S} {rest : List ℕ} {p : Ptr}
    (ha : p.addr % R.align = 0) (hm : p.mem = l.flatMap R.enc ++ rest) (hd : ∀ a ∈ l, R.dec (R.enc a) = a) :
    fromRawParts R p l.length = some l := by
  unfold fromRawParts
  have hlen : p.mem.length = l.length * R.size + rest.length := by
    rw [hm, List.length_append, flatMap_enc_length hl]
  rw [if_pos ⟨ha, by omega⟩, hm]
  exact mapM_range_getElem fun i hi => readAt_enc hl hi (hd _ (List.getElem_mem hi))

theorem writeAt?_zero {α : Type} {a b r : List α} (h : a.length = b.length) :
    writeAt? (b ++ r) 0 a = some (a ++ r) := by
  unfold writeAt?
  rw [if_pos (by rw [List.length_append]; omega)]
  simp [h]

theorem cSource_aligned {R : MemRepr S} (h0 : 0 < R.size) (hl : ∀ a, (R.enc a).length = R.size) {N : ℕ}
    {src : Ptr} {sb : List S} {sr : List ℕ} {ss w h depth : ℕ} (as : src.addr % R.align = 0)
    (ms : src.mem = sb.flatMap R.enc ++ sr) (ls : sb.length = ss * h) (es : ∀ a ∈ sb, R.dec (R.enc a) = a) :
    cSource R N src (ss * R.size) w h depth = some ⟨sb, N, w, h, ss, depth⟩ := by
  unfold cSource
  rw [if_neg (by rw [Nat.mul_mod_left]; simp [as]), Nat.mul_div_cancel _ h0, ← ls, fromRawParts_enc hl as ms es]
  rfl

/-- An aligned destination, for any `scale` that keeps the number of destination samples. -/
theorem cResize_aligned {R : MemRepr S} (h0 : 0 < R.size) (hl : ∀ a, (R.enc a).length = R.size) {N : ℕ}
    {scale : Image S → Image S → Option (Except Err Unit × Image S)}
    (hk : ∀ a b, Post (scale a b) (fun r => r.2.buffer.length = b.buffer.length))
    {src dst : Ptr} {source : Image S} {db : List S} {dr : List ℕ} {st ds w h nw nh depth : ℕ}
    (hs : cSource R N src st w h depth = some source) (ad : dst.addr % R.align = 0)
    (md : dst.mem = db.flatMap R.enc ++ dr) (ld : db.length = ds * nh) (ed : ∀ a ∈ db, R.dec (R.enc a) = a) :
    cResize R N scale src st w h dst (ds * R.size) nw nh depth =
      (scale source ⟨db, N, nw, nh, ds, depth⟩).map
        fun r => (mapErrorCode r.1, r.2.buffer.flatMap R.enc ++ dr) := by
  unfold cResize
  rw [hs]
  simp only [Option.bind_eq_bind, Option.bind_some]
  rw [if_neg (by rw [Nat.mul_mod_left]; simp),
    Nat.mul_div_cancel _ h0, Nat.mul_comm nh ds, ← ld, fromRawParts_enc hl ad md ed]
  simp only [Option.bind_some]
  cases e : scale source ⟨db, N, nw, nh, ds, depth⟩ with
  | none => rfl
  | some r =>
    have := hk _ _ r e
    simp only [Option.bind_some, Option.map_some]
    rw [md, writeAt?_zero (by rw [flatMap_enc_length hl, flatMap_enc_length hl, this])]
    rfl

/-! ### unaligned sources of `N` bytes per sample -/

theorem HasRows.readAt {R : MemRepr S} (h0 : 0 < R.size) (hl : ∀ a, (R.enc a).length = R.size) {mem : List ℕ}
    {stride rowLen h : ℕ} {v : ℕ → ℕ → S} (H : HasRows R mem stride rowLen h v) {y i : ℕ} (hy : y < h) (hi : i < rowLen) :
    readAt R mem (y * stride + i * R.size) = some (v y i) := by
  obtain ⟨e, d⟩ := H y i hy hi
  have := congrArg List.length e
  rw [hl, List.length_take, List.length_drop] at this
  unfold PicScale.readAt slice?
  rw [if_pos ⟨by omega, by omega⟩, Nat.add_sub_cancel_left, e, Option.map_some, d]

theorem unalignedRow_eq {R : MemRepr S} {N stride : ℕ} {mem : List ℕ} {row : List S} {y : ℕ} {v : ℕ → S}
    (h : ∀ i, i < row.length → i < stride / N ∧ readAt R mem (y * stride + i * N) = some (v i)) :
    unalignedRow R N mem stride row y = some ((List.range row.length).map v) := by
  unfold unalignedRow
  induction row using List.reverseRecOn with
  | nil => rfl
  | append_singleton l a ih =>
    rw [List.zipIdx_append, List.mapM_append, ih fun i hi => h i (by simp; omega)]
    obtain ⟨h1, h2⟩ := h l.length (by simp)
    simp [List.range_succ, h1, h2]

theorem cSource_unaligned {R : MemRepr S} {N : ℕ} (hN : 0 < N) (hs : R.size = N) (hl : ∀ a, (R.enc a).length = R.size)
    {src : Ptr} {stride w h depth : ℕ} {v : ℕ → ℕ → S}
    (hu : src.addr % R.align ≠ 0 ∨ stride % R.size ≠ 0) (hw : 0 < w) (hst : w * N * R.size ≤ stride)
    (hm : stride * h ≤ src.mem.length) (H : HasRows R src.mem stride (w * N) h v) :
    cSource R N src stride w h depth = some ⟨packedRows (w * N) h v, N, w, h, w * N, depth⟩ := by
  have hp : 0 < w * N := Nat.mul_pos hw hN
  have hst0 : 0 < stride := lt_of_lt_of_le (Nat.mul_pos hp (by omega)) hst
  have hrep : List.replicate (w * h * N) R.default = List.replicate (h * (w * N)) R.default := by
    congr 1; ring
  unfold cSource
  rw [if_pos hu, if_neg (by omega), hrep]
  obtain ⟨r, e, el, e1, _⟩ := updChunks_spec (w * N) (unalignedRow R N src.mem stride) (List.range h)
    (List.replicate (h * (w * N)) R.default) (fun y => (List.range (w * N)).map (v y)) (by simp) (by
      intro y x hx
      obtain ⟨hy, rfl⟩ := List.getElem?_eq_some_iff.mp hx
      simp only [List.length_range] at hy
      simp only [List.getElem_range]
      have hlen : ((List.replicate (h * (w * N)) R.default).drop (y * (w * N))).take (w * N) =
          List.replicate (w * N) R.default := by
        rw [List.drop_replicate, List.take_replicate]
        congr 1
        have : (y + 1) * (w * N) ≤ h * (w * N) := Nat.mul_le_mul_right _ hy
        rw [Nat.add_mul] at this
        omega
      rw [hlen, unalignedRow_eq (v := v y)]
      · simp
      · intro i hi
        simp only [List.length_replicate] at hi
        refine ⟨?_, ?_⟩
        · have h1 : (i + 1) * N ≤ w * N * R.size := by rw [hs]; exact Nat.mul_le_mul_right _ hi
          exact (Nat.le_div_iff_mul_le hN).mpr (h1.trans hst)
        · have := H.readAt (by omega) hl hy hi
          rwa [hs] at this) (by simp)
  rw [e]
  have hr : r = packedRows (w * N) h v := by
    apply List.ext_getElem?
    intro p
    unfold packedRows
    by_cases hpl : p < h * (w * N)
    · have hy : p / (w * N) < h := by rw [Nat.div_lt_iff_lt_mul hp]; exact hpl
      have := e1 (p / (w * N)) (p % (w * N)) (by simpa using hy) (Nat.mod_lt _ hp)
      rw [Nat.div_add_mod'] at this
      rw [this]
      simp [Nat.mod_lt _ hp, Nat.mul_comm (w * N) h, hpl]
    · rw [List.getElem?_eq_none (by rw [el]; simp; omega), List.getElem?_eq_none (by
        simp [Nat.mul_comm (w * N) h]; omega)]
  rw [hr]
  rfl

end PicScale
