import Verif.Lemmas.CApi
import Verif.Props.Sched
import Verif.Props.Resize

/-!
Property theorems about the C interface: C59, C60.
-/

namespace PicScale

theorem cScale_eq {M : Machine} (hM : ∀ n, (M.pool n).Valid) {W N : ℕ} (hN : 1 ≤ N) {t : PixelTy} {bits : ℚ → ℕ}
    {L : Lib} {f : CFilter} {flags : ℕ} {store into : Image t.Sample} :
    cScale M W N t bits L f flags store into =
      rustCall W N t bits L (filterMeaning f) (decide (flags % 2 = 1)) store into := by
  unfold cScale rustCall
  rw [show f.toResampling = filterMeaning f by cases f <;> rfl]
  have hf : (flags &&& PIC_SCALE_PREMULTIPLY_ALPHA ≠ 0) = (flags % 2 = 1) := by
    rw [PIC_SCALE_PREMULTIPLY_ALPHA, Nat.and_one_is_mod]
    exact propext (by omega)
  simp only [hf]
  by_cases h4 : N = 4
  · rw [if_pos h4, if_pos h4, C27_resize_with_alpha M hM]
    simp [resizeAlphaUnder, Machine.poolFor, Policy.getPool]
  · rw [if_neg h4, if_neg h4, C27_resize M hM _ _ _ hN]
    simp [resizeUnder, Machine.poolFor, Policy.getPool]

theorem rustCall_len {W N : ℕ} {t : PixelTy} {bits : ℚ → ℕ} {L : Lib} {r : ResamplingFunction} {p : Bool}
    {store into : Image t.Sample} :
    Post (rustCall W N t bits L r p store into) (fun d => d.2.buffer.length = into.buffer.length) := by
  unfold rustCall
  exact Post.ite genericResizeWithAlpha_len (genericResize_len (lenKept_format t N))

/-- **C59.** A C call whose pointers are aligned and whose strides are whole numbers of samples, on
buffers of (at least) `stride * height` bytes, does what the Rust call does: it returns 0 or the code of
the Rust error, the destination rows hold the bytes of the Rust result, and the bytes behind the rows
(`dr`) are untouched. The multithreading flag and the number of threads play no role. `none` (a panic)
happens only if the Rust call panics. -/
theorem C59_aligned (M : Machine) (hM : ∀ n, (M.pool n).Valid) {W N : ℕ} (hN : 1 ≤ N) {t : PixelTy}
    {R : MemRepr t.Sample} (hR : R.Sized) {bits : ℚ → ℕ} {L : Lib} {f : CFilter} {flags : ℕ}
    {src dst : Ptr} {sb db : List t.Sample} {sr dr : List ℕ} {ss ds w h nw nh depth : ℕ}
    (as : src.addr % R.align = 0) (ad : dst.addr % R.align = 0)
    (ms : src.mem = sb.flatMap R.enc ++ sr) (md : dst.mem = db.flatMap R.enc ++ dr)
    (ls : sb.length = ss * h) (ld : db.length = ds * nh)
    (es : ∀ a ∈ sb, R.dec (R.enc a) = a) (ed : ∀ a ∈ db, R.dec (R.enc a) = a) :
    picScaleResize M W N t R bits L src (ss * R.size) w h dst (ds * R.size) nw nh depth f flags =
      (rustCall W N t bits L (filterMeaning f) (decide (flags % 2 = 1))
        ⟨sb, N, w, h, ss, cDepth t depth⟩ ⟨db, N, nw, nh, ds, cDepth t depth⟩).map
        fun r => (mapErrorCode r.1, r.2.buffer.flatMap R.enc ++ dr) := by
  have e : picScaleResize M W N t R bits L src (ss * R.size) w h dst (ds * R.size) nw nh depth f flags =
      cResize R N (cScale M W N t bits L f flags) src (ss * R.size) w h dst (ds * R.size) nw nh (cDepth t depth) := by
    cases t <;> rfl
  rw [e, cResize_aligned hR.pos hR.len (fun a b => by rw [cScale_eq hM hN]; exact rustCall_len)
    (cSource_aligned hR.pos hR.len as ms ls es) ad md ld ed, cScale_eq hM hN]

theorem rustCall_error {W N : ℕ} {t : PixelTy} {bits : ℚ → ℕ} {L : Lib} {r : ResamplingFunction} {p : Bool}
    {store into out : Image t.Sample} {e : Err}
    (h : rustCall W N t bits L r p store into = some (.error e, out)) : out = into := by
  unfold rustCall at h
  split at h
  · exact C04_error_untouched (F := t.format 4) (Or.inr h)
  · exact C04_error_untouched (A := t.alpha bits) (req := p) (Or.inl h)

/-- **C59**, as a caller of the C function sees it: if it returns 0 the Rust call was `Ok`, otherwise the
Rust call failed with an error of that code and no destination byte changed. -/
theorem C59_codes (M : Machine) (hM : ∀ n, (M.pool n).Valid) {W N : ℕ} (hN : 1 ≤ N) {t : PixelTy}
    {R : MemRepr t.Sample} (hR : R.Sized) {bits : ℚ → ℕ} {L : Lib} {f : CFilter} {flags : ℕ}
    {src dst : Ptr} {sb db : List t.Sample} {sr dr : List ℕ} {ss ds w h nw nh depth : ℕ}
    (as : src.addr % R.align = 0) (ad : dst.addr % R.align = 0)
    (ms : src.mem = sb.flatMap R.enc ++ sr) (md : dst.mem = db.flatMap R.enc ++ dr)
    (ls : sb.length = ss * h) (ld : db.length = ds * nh)
    (es : ∀ a ∈ sb, R.dec (R.enc a) = a) (ed : ∀ a ∈ db, R.dec (R.enc a) = a) {code : ℕ} {mem : List ℕ}
    (hc : picScaleResize M W N t R bits L src (ss * R.size) w h dst (ds * R.size) nw nh depth f flags =
      some (code, mem)) :
    (code = 0 ∧ ∃ out, rustCall W N t bits L (filterMeaning f) (decide (flags % 2 = 1))
        ⟨sb, N, w, h, ss, cDepth t depth⟩ ⟨db, N, nw, nh, ds, cDepth t depth⟩ = some (.ok (), out) ∧
        mem = out.buffer.flatMap R.enc ++ dr) ∨
    (mem = dst.mem ∧ ∃ e out, rustCall W N t bits L (filterMeaning f) (decide (flags % 2 = 1))
        ⟨sb, N, w, h, ss, cDepth t depth⟩ ⟨db, N, nw, nh, ds, cDepth t depth⟩ = some (.error e, out) ∧
        code = e.code ∧ code ≠ 0) := by
  rw [C59_aligned M hM hN hR as ad ms md ls ld es ed] at hc
  obtain ⟨⟨r, out⟩, h1, h2⟩ := Option.map_eq_some_iff.mp hc
  simp only [Prod.mk.injEq] at h2
  obtain ⟨rfl, rfl⟩ := h2
  cases r with
  | ok u => exact Or.inl ⟨rfl, out, h1, rfl⟩
  | error e =>
    refine Or.inr ⟨?_, e, out, h1, rfl, ?_⟩
    · rw [rustCall_error h1, md]
    · cases e <;> simp [mapErrorCode, Err.code]

theorem sizedU8 : reprU8.Sized := ⟨by decide, fun _ => rfl⟩
theorem sizedU16 : reprU16.Sized := ⟨by decide, fun _ => rfl⟩

/-- Every byte, and every 16-bit value, is read back as written. -/
example : (∀ v, reprU8.dec (reprU8.enc v) = v) ∧ (∀ v, reprU16.dec (reprU16.enc v) = v) := by
  refine ⟨fun v => rfl, fun v => ?_⟩
  simp only [reprU16, List.getD_cons_zero, List.getD_cons_succ]
  omega

/-! ### C60: alignment -/

/-- **C60** (partly). A source that is not aligned, or whose stride is not a whole number of samples, is
read correctly if the sample size equals the number of channels (RGBA f32, CbCr u16): the call is the Rust
call on the packed samples. -/
theorem C60_source_partial (M : Machine) (hM : ∀ n, (M.pool n).Valid) {W N : ℕ} (hN : 1 ≤ N) {t : PixelTy}
    {R : MemRepr t.Sample} (hR : R.Sized) (hsz : R.size = N) {bits : ℚ → ℕ} {L : Lib} {f : CFilter} {flags : ℕ}
    {src dst : Ptr} {db : List t.Sample} {dr : List ℕ} {stride ds w h nw nh depth : ℕ} {v : ℕ → ℕ → t.Sample}
    (hw : 0 < w) (hst : w * N * R.size ≤ stride) (hm : stride * h ≤ src.mem.length)
    (hu : src.addr % R.align ≠ 0 ∨ stride % R.size ≠ 0)
    (H : HasRows R src.mem stride (w * N) h v) (ad : dst.addr % R.align = 0)
    (md : dst.mem = db.flatMap R.enc ++ dr) (ld : db.length = ds * nh) (ed : ∀ a ∈ db, R.dec (R.enc a) = a) :
    picScaleResize M W N t R bits L src stride w h dst (ds * R.size) nw nh depth f flags =
      (rustCall W N t bits L (filterMeaning f) (decide (flags % 2 = 1))
        ⟨packedRows (w * N) h v, N, w, h, w * N, cDepth t depth⟩ ⟨db, N, nw, nh, ds, cDepth t depth⟩).map
        fun r => (mapErrorCode r.1, r.2.buffer.flatMap R.enc ++ dr) := by
  have e : picScaleResize M W N t R bits L src stride w h dst (ds * R.size) nw nh depth f flags =
      cResize R N (cScale M W N t bits L f flags) src stride w h dst (ds * R.size) nw nh (cDepth t depth) := by
    cases t <;> rfl
  rw [e, cResize_aligned hR.pos hR.len (fun a b => by rw [cScale_eq hM hN]; exact rustCall_len)
    (cSource_unaligned (by omega) hsz hR.len hu hw hst hm H) ad md ld ed, cScale_eq hM hN]

/-- A valid machine for the examples: pools run their tasks one after the other. -/
def demoMachine : Machine := ⟨8, fun _ _ => true, fun _ => seqPool⟩

/-- The arguments of the examples: RGBA16 and planar 16-bit calls that copy (equal sizes) with the
`Bilinear` filter. -/
def demoCall (N : ℕ) (src : Ptr) (srcStride w h : ℕ) (dst : Ptr) (dstStride nw nh : ℕ) : Option (ℕ × List ℕ) :=
  picScaleResize demoMachine (2 ^ 64) N (.u16 true) reprU16 (fun _ => 0) demoLib src srcStride w h dst dstStride nw nh
    10 .bilinear 0

/-- Aligned: one RGBA16 pixel is copied. -/
example : demoCall 4 ⟨0, [1, 2, 3, 1, 5, 2, 7, 3]⟩ 8 1 1 ⟨64, List.replicate 9 9⟩ 8 1 1 =
    some (0, [1, 2, 3, 1, 5, 2, 7, 3, 9]) := by
  decide +kernel

/-- An aligned call with an error: the destination width is zero. -/
example : demoCall 4 ⟨0, [1, 2, 3, 1, 5, 2, 7, 3]⟩ 8 1 1 ⟨64, List.replicate 9 9⟩ 8 0 1 =
    some (1, List.replicate 9 9) := by
  decide +kernel

/-- An odd source address, two channels of two bytes: read correctly. -/
example : demoCall 2 ⟨3, [1, 2, 3, 1, 5]⟩ 5 1 1 ⟨64, List.replicate 4 9⟩ 4 1 1 = some (0, [1, 2, 3, 1]) := by
  decide +kernel

/-- The hypotheses of `C60_source_partial` hold of that call. -/
example : HasRows reprU16 [1, 2, 3, 1, 5] 5 (1 * 2) 1 (fun _ i => if i = 0 then 513 else 259) ∧
    reprU16.size = 2 ∧ 1 * 2 * reprU16.size ≤ 5 ∧ 3 % reprU16.align ≠ 0 := by
  refine ⟨fun y i hy hi => ?_, rfl, by decide, by decide⟩
  have : i = 0 ∨ i = 1 := by omega
  obtain rfl : y = 0 := by omega
  rcases this with rfl | rfl <;> decide

/-- **C60 fails.**
(1) The same RGBA16 pixel at an odd source address: every *other* sample is read, the rest is zero.
(2) A planar 16-bit destination at an odd address with an even stride: undefined behaviour (a misaligned
slice).
(3) A planar 16-bit destination with stride 5 (two samples and a padding byte) and two rows: the second row
is written at byte 4.
(4) A planar 16-bit destination of 2 × 1 samples at an odd address with stride 5: the code builds a slice of
`2 * 5` bytes over a buffer of `1 * 5` bytes.
(5) A source of width 0 at an odd address: panic instead of the error code. -/
theorem C60_violated :
    demoCall 4 ⟨1, [1, 2, 3, 1, 5, 2, 7, 3]⟩ 8 1 1 ⟨64, List.replicate 8 9⟩ 8 1 1 =
      some (0, [1, 2, 5, 2, 0, 0, 0, 0]) ∧
    demoCall 1 ⟨0, [1, 2]⟩ 2 1 1 ⟨65, List.replicate 2 9⟩ 2 1 1 = none ∧
    demoCall 1 ⟨0, [1, 0, 2, 0, 3, 0, 4, 0]⟩ 4 2 2 ⟨64, List.replicate 10 9⟩ 5 2 2 =
      some (0, [1, 0, 2, 0, 3, 0, 4, 0, 9, 9]) ∧
    demoCall 1 ⟨0, [1, 0, 2, 0]⟩ 4 2 1 ⟨65, List.replicate 5 9⟩ 5 2 1 = none ∧
    demoCall 4 ⟨1, []⟩ 8 0 0 ⟨64, List.replicate 8 9⟩ 8 1 1 = none := by
  decide +kernel

end PicScale
