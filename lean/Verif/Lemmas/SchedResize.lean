import Verif.Lemmas.SchedLength
import Verif.Lemmas.Resize

namespace PicScale

variable {S A : Type}

/-- Two implementations of a format that agree whenever the destination has a positive stride. -/
structure Agree (N : ℕ) (F G : Format S) : Prop where
  dflt : F.default = G.default
  bits : F.shouldHaveBitDepth = G.shouldHaveBitDepth
  vert : ∀ src dst fw, 0 < dst.strideOf N → F.vertical src dst fw = G.vertical src dst fw
  horz : ∀ src dst fw, 0 < dst.strideOf N → F.horizontal src dst fw = G.horizontal src dst fw

/-- Passes do not change the geometry of the destination. -/
structure Geometry (F : Format S) : Prop where
  vert : ∀ src dst fw, Post (F.vertical src dst fw) (fun d => d.stride = dst.stride ∧ d.width = dst.width)
  horz : ∀ src dst fw, Post (F.horizontal src dst fw) (fun d => d.stride = dst.stride ∧ d.width = dst.width)

theorem tempImage_stride {W N : ℕ} {d : S} {w h b : ℕ} (hN : 1 ≤ N) (hw : 0 < w) :
    Post (tempImage W N d w h b) (fun t => 0 < t.strideOf N) := by
  intro t ht
  unfold tempImage at ht
  split at ht
  · simp at ht
  · unfold Image.fromSlice at ht
    split at ht
    · rename_i img he
      simp only [Option.some.injEq] at ht
      subst ht
      split at he
      · simp at he
      · simp only [Except.ok.injEq] at he
        subst he
        have : 0 < w * N := Nat.mul_pos hw hN
        simp only [Image.strideOf]
        split <;> omega
    · simp at ht

theorem bind_congr_post {α β : Type} {o : Option α} {f g : α → Option β} {P : α → Prop} (ho : Post o P)
    (h : ∀ a, P a → f a = g a) : (o >>= f) = (o >>= g) := by
  cases o with
  | none => rfl
  | some a => exact h a (ho a rfl)

theorem convolve_agree {W N : ℕ} {F G : Format S} (h : Agree N F G) (hN : 1 ≤ N)
    {table : ℕ → ℕ → Option (FilterWeights ℚ)} {store into : Image S} (hw : 0 < store.width)
    (hi : 0 < into.strideOf N) : convolve W N F table store into = convolve W N G table store into := by
  unfold convolve
  rw [h.dflt]
  by_cases h1 : store.width ≠ into.width ∧ store.height ≠ into.height
  · rw [if_pos h1, if_pos h1]
    refine bind_congr_post (tempImage_stride hN hw) fun tmp ht => ?_
    refine bind_congr_post (P := fun _ => True) (fun _ _ => trivial) fun vf _ => ?_
    rw [h.vert _ _ _ ht]
    refine bind_congr_post (P := fun _ => True) (fun _ _ => trivial) fun tmp _ => ?_
    dsimp only
    refine bind_congr_post (P := fun _ => True) (fun _ _ => trivial) fun hf _ => ?_
    exact h.horz _ _ _ hi
  · rw [if_neg h1, if_neg h1]
    by_cases h2 : store.height ≠ into.height
    · rw [if_pos h2, if_pos h2]
      refine bind_congr_post (P := fun _ => True) (fun _ _ => trivial) fun vf _ => ?_
      exact h.vert _ _ _ hi
    · rw [if_neg h2, if_neg h2]
      refine bind_congr_post (P := fun _ => True) (fun _ _ => trivial) fun vf _ => ?_
      exact h.horz _ _ _ hi

theorem convolve_geometry {W N : ℕ} {F : Format S} (hg : Geometry F)
    {table : ℕ → ℕ → Option (FilterWeights ℚ)} {store into : Image S} :
    Post (convolve W N F table store into) (fun d => d.stride = into.stride ∧ d.width = into.width) := by
  unfold convolve
  refine Post.ite ?_ (Post.ite ?_ ?_)
  · exact Post.bind fun tmp _ => Post.bind fun vf _ => Post.bind fun t _ => Post.bind fun hf _ => hg.horz _ _ _
  · exact Post.bind fun vf _ => hg.vert _ _ _
  · exact Post.bind fun vf _ => hg.horz _ _ _

theorem horizontalDispatch_geometry {N : ℕ} {src dst : Image S}
    {h4 : Option (List S → ℕ → List S → ℕ → Option (List S))} {h1 : List S → List S → Option (List S)} :
    Post (horizontalDispatch N src dst h4 h1) (fun d => d.stride = dst.stride ∧ d.width = dst.width) := by
  unfold horizontalDispatch
  cases h4 with
  | none => exact Post.bind fun d _ => Post.pure ⟨rfl, rfl⟩
  | some f => exact Post.bind fun d _ => Post.bind fun r _ => Post.pure ⟨rfl, rfl⟩

theorem verticalDispatch_geometry {W : Type} {N : ℕ} {src dst : Image S} {bounds : List Bounds} {al : ℕ} {weights : List W}
    {handler : Bounds → List S → List S → ℕ → List W → Option (List S)} :
    Post (verticalDispatch N src dst bounds al weights handler)
      (fun d => d.stride = dst.stride ∧ d.width = dst.width) := by
  unfold verticalDispatch
  exact Post.bind fun d _ => Post.pure ⟨rfl, rfl⟩

theorem geometry_format (t : PixelTy) (N : ℕ) : Geometry (t.format N) := by
  cases t with
  | u8 =>
    refine ⟨fun _ _ _ => verticalDispatch_geometry, fun _ _ _ => ?_⟩
    simp only [PixelTy.format, formatU8, horizontalFixed]
    exact horizontalDispatch_geometry
  | f32 fused =>
    refine ⟨fun _ _ _ => verticalDispatch_geometry, fun _ _ _ => ?_⟩
    simp only [PixelTy.format, formatFloat, horizontalFloat]
    exact horizontalDispatch_geometry
  | u16 fused =>
    refine ⟨fun src dst fw => ?_, fun src dst fw => ?_⟩
    · simp only [PixelTy.format, formatU16]
      exact Post.ite verticalDispatch_geometry verticalDispatch_geometry
    · simp only [PixelTy.format, formatU16]
      exact Post.ite horizontalDispatch_geometry horizontalDispatch_geometry

theorem agree_format {E : Pool} (hE : E.Valid) (t : PixelTy) (N : ℕ) : Agree N (t.formatPar E N) (t.format N) := by
  have l4 : ∀ hi q (f : List ℕ → ℕ → List ℕ → ℕ → Option (List ℕ)),
      (some fun s ss d ds => rows4Fixed N hi s ss d ds q) = some f →
      ∀ s ss d ds, Post (f s ss d ds) (fun r => r.length = d.length) := by
    intro hi q f hf s ss d ds
    simp only [Option.some.injEq] at hf
    subst hf
    exact rows4Fixed_len
  have m4 : ∀ {S A : Type} (o : FloatOps S A) q (f : List S → ℕ → List S → ℕ → Option (List S)),
      (some fun s ss d ds => rows4Float o N s ss d ds q) = some f →
      ∀ s ss d ds, Post (f s ss d ds) (fun r => r.length = d.length) := by
    intro S A o q f hf s ss d ds
    simp only [Option.some.injEq] at hf
    subst hf
    exact rows4Float_len
  cases t with
  | u8 =>
    refine ⟨rfl, rfl, fun src dst fw h => ?_, fun src dst fw h => ?_⟩
    · exact verticalDispatchPar_eq hE h fun _ _ _ _ _ => columnFixed_len
    · exact horizontalDispatchPar_eq hE h (l4 _ _) fun _ _ => rowFixed_len
  | f32 fused =>
    refine ⟨rfl, rfl, fun src dst fw h => ?_, fun src dst fw h => ?_⟩
    · exact verticalDispatchPar_eq hE h fun _ _ _ _ _ => columnFloat_len
    · exact horizontalDispatchPar_eq hE h (m4 _ _) fun _ _ => rowFloat_len
  | u16 fused =>
    refine ⟨rfl, rfl, fun src dst fw h => ?_, fun src dst fw h => ?_⟩
    · simp only [PixelTy.format, PixelTy.formatPar, formatU16, formatU16Par]
      by_cases hb : 12 < dst.bitDepth
      · rw [if_pos hb, if_pos hb]
        exact verticalDispatchPar_eq hE h fun _ _ _ _ _ => columnFloat_len
      · rw [if_neg hb, if_neg hb]
        exact verticalDispatchPar_eq hE h fun _ _ _ _ _ => columnFixed_len
    · simp only [PixelTy.format, PixelTy.formatPar, formatU16, formatU16Par]
      by_cases hb : 12 < dst.bitDepth
      · rw [if_pos hb, if_pos hb]
        exact horizontalDispatchPar_eq hE h (m4 _ _) fun _ _ => rowFloat_len
      · rw [if_neg hb, if_neg hb]
        exact horizontalDispatchPar_eq hE h (l4 _ _) fun _ _ => rowFixed_len

theorem strideOf_pos {N : ℕ} {img : Image S} (hN : 1 ≤ N) (hw : 0 < img.width) : 0 < img.strideOf N := by
  have : 0 < img.width * N := Nat.mul_pos hw hN
  unfold Image.strideOf
  split <;> omega

theorem genericResizePar_eq {E : Pool} (hE : E.Valid) {W N : ℕ} (hN : 1 ≤ N) {F G : Format S} (h : Agree N F G)
    (L : Lib) (r : ResamplingFunction) (store into : Image S) :
    genericResizePar E W N F L r store into = genericResize W N G L r store into := by
  unfold genericResizePar genericResize
  rw [h.bits]
  cases hc : checkResize W N G.shouldHaveBitDepth store into with
  | error e => rfl
  | ok u =>
    obtain ⟨_, _, ⟨hsw, _, hiw, _⟩, _⟩ := checkResize_ok.mp hc
    dsimp only
    rw [convolve_agree h hN hsw (strideOf_pos hN hiw), resizeNearestPar_eq hE (Nat.mul_pos hiw hN)]
    unfold resizeByNearest
    congr 2
    simp only [Option.bind_eq_bind, Option.bind_assoc, Option.bind_some]

/-- Alpha implementations that agree on images with a positive stride. -/
structure AgreeAlpha (A B : AlphaOps S) : Prop where
  needed : A.isNeeded = B.isNeeded
  pre : ∀ src dst, 0 < dst.strideOf 4 → A.premultiply src dst = B.premultiply src dst
  un : ∀ img, 0 < img.strideOf 4 → A.unpremultiply img = B.unpremultiply img

theorem agree_alpha {E : Pool} (hE : E.Valid) (t : PixelTy) (bits : ℚ → ℕ) :
    AgreeAlpha (t.alphaPar E bits) (t.alpha bits) := by
  cases t with
  | u8 =>
    exact ⟨rfl, fun _ _ h => premultiplyImagePar_eq hE pixelOp_len h, fun _ h => unpremultiplyImagePar_eq hE pixelOp_len h⟩
  | u16 fused =>
    exact ⟨rfl, fun _ _ h => premultiplyImagePar_eq hE pixelOp_len h, fun _ h => unpremultiplyImagePar_eq hE pixelOp_len h⟩
  | f32 fused =>
    exact ⟨rfl, fun _ _ h => premultiplyImagePar_eq hE pixelOp_len h, fun _ h => unpremultiplyImagePar_eq hE pixelOp_len h⟩

theorem premultiplied_agree {W : ℕ} {F G : Format S} {A B : AlphaOps S} (h : Agree 4 F G) (ha : AgreeAlpha A B)
    {req : Bool} {store into : Image S} (hw : 0 < store.width) :
    premultiplied W 4 F A req store into = premultiplied W 4 G B req store into := by
  unfold premultiplied
  rw [ha.needed, h.dflt]
  split
  · refine bind_congr_post (tempImage_stride (by omega) hw) fun tmp ht => ?_
    rw [ha.pre _ _ ht]
  · rfl

theorem premultiplied_width {W N : ℕ} {F : Format S} {A : AlphaOps S} {req : Bool} {store into : Image S} :
    Post (premultiplied W N F A req store into) (fun s => s.width = store.width) := by
  unfold premultiplied
  refine Post.ite ?_ (Post.pure rfl)
  exact Post.bind fun _ _ => Post.bind fun _ _ => Post.pure rfl

theorem genericResizeWithAlphaPar_eq {E : Pool} (hE : E.Valid) {W : ℕ} {F G : Format S} {A B : AlphaOps S}
    (h : Agree 4 F G) (hg : Geometry G) (ha : AgreeAlpha A B)
    (L : Lib) (r : ResamplingFunction) (store into : Image S) (req : Bool) :
    genericResizeWithAlphaPar E W 4 F A L r store into req = genericResizeWithAlpha W 4 G B L r store into req := by
  unfold genericResizeWithAlphaPar genericResizeWithAlpha
  rw [h.bits]
  cases hc : checkResize W 4 G.shouldHaveBitDepth store into with
  | error e => rfl
  | ok u =>
    obtain ⟨_, _, ⟨hsw, _, hiw, _⟩, _⟩ := checkResize_ok.mp hc
    dsimp only
    rw [premultiplied_agree h ha hsw, resizeNearestPar_eq hE (Nat.mul_pos hiw (by omega))]
    by_cases h1 : store.width = into.width ∧ store.height = into.height
    · rw [if_pos h1, if_pos h1]
    rw [if_neg h1, if_neg h1]
    by_cases h2 : r = .nearest
    · rw [if_pos h2, if_pos h2]
      unfold resizeByNearest
      simp only [Option.bind_eq_bind, Option.bind_assoc, Option.bind_some]
    rw [if_neg h2, if_neg h2]
    refine bind_congr_post premultiplied_width fun src hs => ?_
    rw [convolve_agree h (by omega) (by rw [hs]; exact hsw) (strideOf_pos (by omega) hiw)]
    refine bind_congr_post (convolve_geometry hg) fun d hd => ?_
    by_cases h3 : req = true
    · rw [if_pos h3, if_pos h3, ha.un]
      exact strideOf_pos (by omega) (by rw [hd.2]; exact hiw)
    · rw [if_neg h3, if_neg h3]

/-! ### packed 10 bit -/

theorem image30_stride_pos {b : List ℕ} {w h s : ℕ} (hs : 0 < s) : 0 < (image30 b w h s).strideOf 4 := by
  unfold image30 Image.strideOf
  dsimp only
  split <;> omega

theorem horizontal30Par_eq {E : Pool} (hE : E.Valid) {F : Fmt30} {src dst : List ℕ} {ss ds : ℕ} (hd : 0 < ds)
    {fw : FilterWeights ℚ} : horizontal30Par E F src ss fw dst ds = horizontal30 F src ss fw dst ds := by
  unfold horizontal30Par horizontal30
  dsimp only
  rw [horizontalDispatchPar_eq hE (image30_stride_pos hd)]
  · intro f hf s ss d ds
    simp only [Option.some.injEq] at hf
    subst hf
    exact rows4_30_len
  · exact fun _ _ => row30_len

theorem vertical30Par_eq {E : Pool} (hE : E.Valid) {F : Fmt30} {src dst : List ℕ} {ss ds w : ℕ} (hd : 0 < ds)
    {fw : FilterWeights ℚ} : vertical30Par E F src ss fw dst ds w = vertical30 F src ss fw dst ds w := by
  unfold vertical30Par vertical30
  dsimp only
  rw [verticalDispatchPar_eq hE (image30_stride_pos hd)]
  exact fun _ _ _ _ _ => column30_len

theorem resize30Par_eq {E : Pool} (hE : E.Valid) {W : ℕ} {F : Fmt30} (L : Lib) (r : ResamplingFunction)
    (src dst : Image ℕ) : resize30Par E W F L r src dst = resize30 W F L r src dst := by
  unfold resize30Par resize30
  cases hc : check30 W src dst with
  | error e => rfl
  | ok u =>
    have hpos : 0 < src.width ∧ 0 < src.stride ∧ 0 < dst.stride := by
      by_contra hcon
      unfold check30 at hc
      simp only [bind, Except.bind, throw, throwThe, MonadExceptOf.throw, pure, Except.pure] at hc
      split_ifs at hc
      omega
    dsimp only
    simp only [resizeNearestPar_eq hE (show 0 < dst.stride * 4 by omega), vertical30Par_eq hE hpos.2.1,
      vertical30Par_eq hE (show 0 < src.width * 4 by omega), horizontal30Par_eq hE hpos.2.2]

end PicScale
