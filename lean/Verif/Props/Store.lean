import Verif.Props.Passes

/-!
Property theorems about image stores, size checks, thread counts and error codes:
C01, C02, C05, C07 (the copy), C28, C42, C44.
-/

namespace PicScale

open Spec

variable {α : Type}

/-- **C01.** The constructors accept exactly the buffers of `width*height*N` elements; then the image
has the given dimensions, packed rows, and sample `(y,x,c)` is element `(y*width+x)*N+c` of the given
slice; otherwise the error carries expected length, dimensions, channel count and actual length. -/
theorem C01_constructors (N : ℕ) (slice : List α) (width height : ℕ) :
    ((∃ img, Image.fromSlice N slice width height = .ok img) ↔ slice.length = width * height * N) ∧
    (∀ img, Image.fromSlice N slice width height = .ok img →
      img.width = width ∧ img.height = height ∧ img.strideOf N = width * N ∧ img.channels = N ∧
      img.buffer = slice ∧ img.validate N = .ok () ∧
      ∀ y x c, sample img.buffer (img.strideOf N) N y x c = slice[(y * width + x) * N + c]?) ∧
    (∀ e, Image.fromSlice N slice width height = .error e →
      e = .bufferMismatch (width * height * N) width height N slice.length) := by
  unfold Image.fromSlice
  dsimp only
  split_ifs with h
  · refine ⟨by simp [h], by simp, ?_⟩
    intro e he
    exact (Except.error.inj he).symm
  · rw [not_not] at h
    refine ⟨by simp [h], ?_, by simp⟩
    intro img hi
    obtain rfl := Except.ok.inj hi
    have hst : Image.strideOf N (Image.mk slice N width height (width * N) 0) = width * N := by
      simp [Image.strideOf]
    refine ⟨rfl, rfl, hst, rfl, rfl, ?_, ?_⟩
    · unfold Image.validate
      rw [hst]
      simp [h]; ring
    · intro y x c
      rw [hst]
      unfold sample
      congr 1
      ring

/-- The hypotheses of C01 are satisfiable: a 2×3 RGB image. -/
example : ∃ img, Image.fromSlice 3 (List.replicate 18 (0 : ℕ)) 2 3 = .ok img :=
  ((C01_constructors 3 _ 2 3).1).2 (by simp)
example : Image.fromSlice 3 (List.replicate 17 (0 : ℕ)) 2 3 = .error (.bufferMismatch 18 2 3 3 17) := by
  decide

/-- `alloc` gives a valid packed image of the requested size, all samples default. -/
theorem C01_alloc (N : ℕ) (d : α) (width height depth : ℕ) :
    let img := Image.alloc N d width height depth
    img.validate N = .ok () ∧ img.width = width ∧ img.height = height ∧ img.bitDepth = depth ∧
      ∀ y x c, y < height → x < width → c < N → sample img.buffer (img.strideOf N) N y x c = some d := by
  intro img
  have hst : img.strideOf N = width * N := by simp [img, Image.alloc, Image.strideOf]
  refine ⟨?_, rfl, rfl, rfl, ?_⟩
  · unfold Image.validate
    rw [hst]
    simp [img, Image.alloc]
  · intro y x c hy hx hc
    rw [hst]
    simp only [sample, img, Image.alloc]
    rw [List.getElem?_replicate, if_pos]
    have h1 : x * N + c < width * N := by
      have := Nat.mul_le_mul_right N (show x + 1 ≤ width from hx)
      rw [Nat.add_mul] at this; omega
    have h2 := Nat.mul_le_mul_right (width * N) (show y + 1 ≤ height from hy)
    rw [Nat.add_mul] at h2
    rw [Nat.mul_comm (width * N) height]
    omega

/-- **C02 is violated.** For *every* image with a zero stride field, positive width and a buffer of
exactly `width*height*N` elements — documented as a packed image — the layout check performed by every
resize call fails with `InvalidStride`, while the same image with the stride written out passes. -/
theorem C02_violated {N : ℕ} {img : Image α} (h0 : img.stride = 0) (hw : 0 < img.width * N)
    (hb : img.buffer.length = img.width * img.height * N) :
    img.validate N = .error (.invalidStride (img.width * N) 0) ∧
    { img with stride := img.width * N }.validate N = .ok () := by
  have h1 : img.strideOf N = img.width * N := by simp [Image.strideOf, h0]
  have h2 : Image.strideOf N { img with stride := img.width * N } = img.width * N := by
    simp [Image.strideOf]
  constructor
  · unfold Image.validate
    rw [h1]
    have : img.buffer.length = img.width * N * img.height := by rw [hb]; ring
    simp [this, h0, hw]
  · unfold Image.validate
    rw [h2]
    have : img.buffer.length = img.width * N * img.height := by rw [hb]; ring
    simp [this]

example : (Image.validate 1 { buffer := [1, 2], channels := 1, width := 2, height := 1, stride := 0, bitDepth := 8 : Image ℕ })
    = .error (.invalidStride 2 0) := by decide

/-- **C02, what does hold.** The `stride()` accessor honours the documentation: with a zero field it
answers `width*N`, so pixel addressing agrees with the packed image. Missing: `validate` (see
`C02_violated`), hence resize calls. -/
theorem C02_stride_accessor_partial {N : ℕ} {img : Image α} (h0 : img.stride = 0) :
    img.strideOf N = { img with stride := img.width * N }.strideOf N := by
  simp [Image.strideOf, h0]

example : (Image.strideOf 3 { buffer := [], channels := 3, width := 5, height := 0, stride := 0, bitDepth := 8 : Image ℕ }) = 15 := by
  decide

/-- **C05.** For every word size `W` (values `0..W-1`), the too-large check rejects a non-empty image
iff `width*height*channels` does not fit the word. -/
theorem C05_size_check {W width height chan : ℕ} (hh : 0 < height) :
    checkImageSizeOverflow W width height chan = true ↔ W ≤ width * height * chan := by
  unfold checkImageSizeOverflow overflowingMul
  dsimp only
  by_cases h1 : W ≤ width * chan
  · simp only [h1, decide_true, if_true, true_iff]
    calc W ≤ width * chan := h1
      _ ≤ width * chan * height := Nat.le_mul_of_pos_right _ hh
      _ = width * height * chan := by ring
  · simp only [h1, decide_false, Bool.false_eq_true, if_false, decide_eq_true_eq]
    rw [Nat.mod_eq_of_lt (by omega)]
    rw [show height * (width * chan) = width * height * chan by ring]

example : checkImageSizeOverflow (2 ^ 64) (2 ^ 32) (2 ^ 31) 2 = true := by decide
example : checkImageSizeOverflow (2 ^ 64) (2 ^ 32) (2 ^ 31) 1 = false := by decide

/-- The same-size copy (`copied_to_mut`) copies every sample, for every pair of strides. -/
theorem copiedToMut_spec {N : ℕ} {src dst : Image α} (hN : 1 ≤ N)
    (hs : src.validate N = .ok ()) (hd : dst.validate N = .ok ()) (hw : src.width = dst.width)
    (hh : src.height = dst.height) (hdw : 0 < dst.width) :
    ∃ out, src.copiedToMut N dst = some out ∧ SameShape out dst ∧
      (∀ y x c, y < dst.height → x < dst.width → c < N →
        sample out.buffer (dst.strideOf N) N y x c = sample src.buffer (src.strideOf N) N y x c) ∧
      (∀ y p, y < dst.height → p < dst.strideOf N → out.buffer[y * dst.strideOf N + p]? =
        if p < src.strideOf N then src.buffer[y * src.strideOf N + p]?
        else dst.buffer[y * dst.strideOf N + p]?) := by
  obtain ⟨s1, s2, _⟩ := validate_ok hs
  obtain ⟨d1, d2, _⟩ := validate_ok hd
  have hdp : 0 < dst.strideOf N := lt_of_lt_of_le (Nat.mul_pos hdw hN) d2
  have hsp : 0 < src.strideOf N := lt_of_lt_of_le (Nat.mul_pos (hw ▸ hdw) hN) s2
  have hn : src.buffer.length / src.strideOf N = dst.height := by
    rw [s1, hh, Nat.mul_div_cancel _ hsp]
  have hdn : dst.buffer.length / dst.strideOf N = dst.height := by
    rw [d1, Nat.mul_div_cancel _ hdp]
  obtain ⟨r, e1, e2, e3, e4⟩ := updChunks_spec (dst.strideOf N)
    (fun row s => some (overwrite s row)) (chunksExact (src.strideOf N) src.buffer) dst.buffer
    (fun y => overwrite ((src.buffer.drop (y * src.strideOf N)).take (src.strideOf N))
      ((dst.buffer.drop (y * dst.strideOf N)).take (dst.strideOf N)))
    (by rw [chunksExact_length, hn, d1])
    (by
      intro i x hx
      have hi : i < dst.height := by
        have := (List.getElem?_eq_some_iff.1 hx).1
        rw [chunksExact_length, hn] at this; exact this
      rw [chunksExact_get _ _ _ (by rw [hn]; exact hi)] at hx
      obtain rfl := Option.some.inj hx
      rfl)
    (by
      intro i hi
      rw [chunksExact_length, hn] at hi
      rw [overwrite_length, chunk_length (by rw [hdn]; exact hi)])
  rw [chunksExact_length, hn] at e3
  have key : ∀ y p, y < dst.height → p < dst.strideOf N → r[y * dst.strideOf N + p]? =
        if p < src.strideOf N then src.buffer[y * src.strideOf N + p]?
        else dst.buffer[y * dst.strideOf N + p]? := by
    intro y p hy hp
    rw [e3 y p hy hp, overwrite_get _ _ _ (by rw [chunk_length (by rw [hdn]; exact hy)]; exact hp),
      chunk_length (by rw [hn]; exact hy)]
    split_ifs with h
    · rw [chunk_get h]
    · rw [chunk_get hp]
  refine ⟨{ dst with buffer := r }, ?_, ⟨rfl, rfl, rfl, rfl, rfl, e2⟩, ?_, key⟩
  · unfold Image.copiedToMut
    simp only [Option.bind_eq_bind, e1, Option.bind_some]
  · intro y x c hy hx hc
    have hlt : x * N + c < dst.width * N := by
      have := Nat.mul_le_mul_right N (show x + 1 ≤ dst.width from hx)
      rw [Nat.add_mul] at this; omega
    unfold sample
    dsimp only
    rw [Nat.add_assoc, key y _ hy (by omega), if_pos (by rw [hw] at s2; omega), Nat.add_assoc]

/-- **C28.** Thread counts are at least 1; `Single` gives 1, `Fixed n` gives `max n 1`, `Adaptive`
never exceeds the machine's parallelism and does not decrease when the image area grows. -/
theorem C28_thread_count (avail : ℕ) (ha : 1 ≤ avail) :
    (∀ (p : Policy) w h, 1 ≤ p.threadCount avail w h) ∧
    (∀ w h, Policy.single.threadCount avail w h = 1) ∧
    (∀ n w h, (Policy.fixed n).threadCount avail w h = max n 1) ∧
    (∀ w h, Policy.adaptive.threadCount avail w h ≤ avail) ∧
    (∀ w h w' h', w * h ≤ w' * h' →
      Policy.adaptive.threadCount avail w h ≤ Policy.adaptive.threadCount avail w' h') ∧
    (∀ ok p w h n, Policy.getPool avail ok p w h = some n → p ≠ .single ∧ n = p.threadCount avail w h) := by
  refine ⟨?_, fun _ _ => rfl, fun _ _ _ => rfl, ?_, ?_, ?_⟩
  · intro p w h
    cases p <;> simp [Policy.threadCount]
  · intro w h
    simp only [Policy.threadCount]
    omega
  · intro w h w' h' hle
    simp only [Policy.threadCount]
    have := Nat.div_le_div_right (c := 256 * 256) hle
    omega
  · intro ok p w h n hp
    unfold Policy.getPool at hp
    split_ifs at hp with h1 h2
    exact ⟨h1, (Option.some.inj hp).symm⟩

example : Policy.adaptive.threadCount 8 1024 1024 = 8 ∧ Policy.adaptive.threadCount 8 512 256 = 2 ∧
    Policy.adaptive.threadCount 8 10 10 = 1 ∧ (Policy.fixed 0).threadCount 8 1 1 = 1 := by decide

/-- Two errors are of the same kind (same variant). -/
def Err.SameKind : Err → Err → Prop
  | .zeroImageDimensions, .zeroImageDimensions => True
  | .sourceImageIsTooLarge, .sourceImageIsTooLarge => True
  | .destinationImageIsTooLarge, .destinationImageIsTooLarge => True
  | .bufferMismatch .., .bufferMismatch .. => True
  | .invalidStride .., .invalidStride .. => True
  | .unsupportedBitDepth _, .unsupportedBitDepth _ => True
  | .unknownResizingFilter, .unknownResizingFilter => True
  | _, _ => False

/-- **C42.** Codes are non-zero and two errors have equal codes iff they are of the same kind. -/
theorem C42_error_codes (e e' : Err) : e.code ≠ 0 ∧ (e.code = e'.code ↔ e.SameKind e') := by
  cases e <;> cases e' <;> simp [Err.code, Err.SameKind]

example : Err.SameKind (.invalidStride 3 1) (.invalidStride 4 2) ∧
    ¬ Err.SameKind .zeroImageDimensions (.unsupportedBitDepth 17) := by simp [Err.SameKind]

/-- **C44 is violated.** There is a valid image with row padding whose copy (`copied`,
`to_immutable`) shows a different sample — and is not even a valid image any more. -/
theorem C44_violated : ∃ img : Image ℕ, img.validate 1 = .ok () ∧
    sample img.buffer (img.strideOf 1) 1 1 0 0 ≠
      sample (img.copied 1).buffer ((img.copied 1).strideOf 1) 1 1 0 0 ∧
    (img.copied 1).validate 1 ≠ .ok () :=
  ⟨{ buffer := [10, 0, 20, 0], channels := 1, width := 1, height := 2, stride := 2, bitDepth := 8 },
    by decide, by decide, by decide⟩

/-- **C44, what holds.** For images without row padding the copy has the same samples and is valid.
Missing: padded images, for which the claim is false. -/
theorem C44_packed_partial {N : ℕ} {img : Image α} (hv : img.validate N = .ok ())
    (hp : img.strideOf N = img.width * N) :
    (img.copied N).validate N = .ok () ∧ ∀ y x c,
      sample (img.copied N).buffer ((img.copied N).strideOf N) N y x c =
        sample img.buffer (img.strideOf N) N y x c := by
  have h2 : (img.copied N).strideOf N = img.width * N := by
    simp [Image.copied, Image.strideOf]
  obtain ⟨d1, _, _⟩ := validate_ok hv
  constructor
  · unfold Image.validate
    rw [h2]
    have : img.buffer.length = img.width * N * img.height := by rw [d1, hp, Nat.mul_comm]
    simp [Image.copied, this]
  · intro y x c
    rw [h2, hp]
    rfl

example : (Image.validate 1 { buffer := [10, 20], channels := 1, width := 1, height := 2, stride := 1, bitDepth := 8 : Image ℕ }) = .ok () := by
  decide

end PicScale
