import Verif.Lemmas.Resize

/-!
Property theorems about whole resize calls: C03, C04, C06, C07, C08, C11, C21, C22, C25, C26, C29, C30.
-/

namespace PicScale

open Spec Finset

variable {S : Type}

/-! ### C03, C04: errors -/

/-- The buffer has exactly `stride * height` elements and rows hold `width` pixels. -/
def LayoutOK (N : ℕ) (img : Image S) : Prop :=
  img.buffer.length = img.stride * img.height ∧ img.width * N ≤ img.stride

theorem validate_iff {N : ℕ} {img : Image S} : img.validate N = .ok () ↔ LayoutOK N img := by
  unfold Image.validate LayoutOK Image.strideOf
  dsimp only
  by_cases h0 : img.stride = 0
  · by_cases hw : img.width * N = 0
    · simp [h0, hw]
    · rw [if_pos h0, h0]
      constructor
      · intro h; split_ifs at h <;> omega
      · intro h; omega
  · rw [if_neg h0]
    split_ifs with h1 h2 <;> simp <;> omega

theorem validate_error {N : ℕ} {img : Image S} (h : ¬ LayoutOK N img) :
    ∃ e, img.validate N = .error e ∧ (e.code = 4 ∨ e.code = 5) := by
  cases hv : img.validate N with
  | ok u => exact absurd (validate_iff.1 hv) h
  | error e =>
    refine ⟨e, rfl, ?_⟩
    unfold Image.validate at hv
    dsimp only at hv
    split_ifs at hv
    · obtain rfl := Except.error.inj hv; exact Or.inl rfl
    · obtain rfl := Except.error.inj hv; exact Or.inr rfl

/-- The result of a resize call is the result of the checks (both entry points). -/
theorem result_is_check {W N : ℕ} {F : Format S} {L : Lib} {r : ResamplingFunction}
    {store into out : Image S} {res : Except Err Unit} {A : AlphaOps S} {req : Bool}
    (h : genericResize W N F L r store into = some (res, out) ∨
      genericResizeWithAlpha W N F A L r store into req = some (res, out)) :
    checkResize W N F.shouldHaveBitDepth store into = res ∧ (∀ e, res = .error e → out = into) := by
  unfold genericResize genericResizeWithAlpha at h
  cases hc : checkResize W N F.shouldHaveBitDepth store into with
  | error e =>
    rw [hc] at h
    simp only [Option.some.injEq, Prod.mk.injEq, or_self] at h
    exact ⟨h.1, fun _ _ => h.2.symm⟩
  | ok u =>
    have key : res = .ok () := by
      rw [hc] at h
      simp only [Option.bind_eq_bind] at h
      rcases h with h | h
      · split_ifs at h
        · obtain ⟨d, _, h⟩ := Option.bind_eq_some_iff.1 h
          simp at h; exact h.1.symm
        · obtain ⟨d, _, h⟩ := Option.bind_eq_some_iff.1 h
          simp at h; exact h.1.symm
        · obtain ⟨d, _, h⟩ := Option.bind_eq_some_iff.1 h
          simp at h; exact h.1.symm
      · split_ifs at h
        · obtain ⟨d, _, h⟩ := Option.bind_eq_some_iff.1 h
          simp at h; exact h.1.symm
        · obtain ⟨d, _, h⟩ := Option.bind_eq_some_iff.1 h
          simp at h; exact h.1.symm
        · obtain ⟨d, _, h⟩ := Option.bind_eq_some_iff.1 h
          obtain ⟨d', _, h⟩ := Option.bind_eq_some_iff.1 h
          obtain ⟨d'', _, h⟩ := Option.bind_eq_some_iff.1 h
          simp at h; exact h.1.symm
        · obtain ⟨d, _, h⟩ := Option.bind_eq_some_iff.1 h
          obtain ⟨d', _, h⟩ := Option.bind_eq_some_iff.1 h
          simp at h; exact h.1.symm
    rw [key]
    exact ⟨rfl, by simp⟩

/-- **C03.** A resize call that returns, returns `Ok` exactly for well formed images of non-zero
representable size and supported depth; otherwise the error is the first applicable one of:
destination layout, source layout (`BufferMismatch` = 4 or `InvalidStride` = 5), zero dimensions,
source too large, destination too large, unsupported bit depth. -/
theorem C03_errors {W N : ℕ} {F : Format S} {L : Lib} {r : ResamplingFunction}
    {store into out : Image S} {res : Except Err Unit} {A : AlphaOps S} {req : Bool}
    (h : genericResize W N F L r store into = some (res, out) ∨
      genericResizeWithAlpha W N F A L r store into req = some (res, out)) :
    let nonZero := 0 < store.width ∧ 0 < store.height ∧ 0 < into.width ∧ 0 < into.height
    let srcFits := store.width * store.height * store.channels < W
    let dstFits := into.width * into.height * store.channels < W
    let depthOK := F.shouldHaveBitDepth = true → 1 ≤ into.bitDepth ∧ into.bitDepth ≤ 16
    (res = .ok () ↔ LayoutOK N into ∧ LayoutOK N store ∧ nonZero ∧ srcFits ∧ dstFits ∧ depthOK) ∧
    (¬ LayoutOK N into → ∃ e, res = .error e ∧ (e.code = 4 ∨ e.code = 5) ∧ into.validate N = .error e) ∧
    (LayoutOK N into → ¬ LayoutOK N store →
      ∃ e, res = .error e ∧ (e.code = 4 ∨ e.code = 5) ∧ store.validate N = .error e) ∧
    (LayoutOK N into → LayoutOK N store → ¬ nonZero → res = .error .zeroImageDimensions) ∧
    (LayoutOK N into → LayoutOK N store → nonZero → ¬ srcFits → res = .error .sourceImageIsTooLarge) ∧
    (LayoutOK N into → LayoutOK N store → nonZero → srcFits → ¬ dstFits →
      res = .error .destinationImageIsTooLarge) ∧
    (LayoutOK N into → LayoutOK N store → nonZero → srcFits → dstFits → ¬ depthOK →
      res = .error (.unsupportedBitDepth into.bitDepth)) := by
  intro nonZero srcFits dstFits depthOK
  obtain ⟨hres, _⟩ := result_is_check h
  subst hres
  have hsz : ∀ {w h' c : ℕ}, 0 < h' → (checkImageSizeOverflow W w h' c = false ↔ w * h' * c < W) := by
    intro w h' c hh
    have := C05_size_check (W := W) (width := w) (height := h') (chan := c) hh
    rw [← Bool.not_eq_true, this, not_le]
  have hsz' : ∀ {w h' c : ℕ}, 0 < h' → (checkImageSizeOverflow W w h' c = true ↔ ¬ w * h' * c < W) := by
    intro w h' c hh
    have := C05_size_check (W := W) (width := w) (height := h') (chan := c) hh
    rw [this, not_lt]
  refine ⟨?_, ?_, ?_, ?_, ?_, ?_, ?_⟩
  · rw [checkResize_ok, validate_iff, validate_iff]
    constructor
    · rintro ⟨a, b, c, d, e, f⟩
      exact ⟨a, b, c, (hsz c.2.1).1 d, (hsz c.2.2.2).1 e, f⟩
    · rintro ⟨a, b, c, d, e, f⟩
      exact ⟨a, b, c, (hsz c.2.1).2 d, (hsz c.2.2.2).2 e, f⟩
  · intro h1
    obtain ⟨e, he, hc⟩ := validate_error h1
    exact ⟨e, by unfold checkResize; rw [he]; rfl, hc, he⟩
  · intro h1 h2
    obtain ⟨e, he, hc⟩ := validate_error h2
    exact ⟨e, by unfold checkResize; rw [validate_iff.2 h1, he]; rfl, hc, he⟩
  · intro h1 h2 h3
    unfold checkResize
    rw [validate_iff.2 h1, validate_iff.2 h2]
    simp only [bind, Except.bind]
    rw [if_pos (by simp only [nonZero] at h3; omega)]
    rfl
  · intro h1 h2 h3 h4
    unfold checkResize
    rw [validate_iff.2 h1, validate_iff.2 h2]
    simp only [bind, Except.bind]
    rw [if_neg (by simp only [nonZero] at h3; omega), if_pos ((hsz' h3.2.1).2 h4)]
    rfl
  · intro h1 h2 h3 h4 h5
    unfold checkResize
    rw [validate_iff.2 h1, validate_iff.2 h2]
    simp only [bind, Except.bind]
    rw [if_neg (by simp only [nonZero] at h3; omega), (hsz h3.2.1).2 h4]
    simp only [Bool.false_eq_true, if_false]
    rw [if_pos ((hsz' h3.2.2.2).2 h5)]
    rfl
  · intro h1 h2 h3 h4 h5 h6
    unfold checkResize
    rw [validate_iff.2 h1, validate_iff.2 h2]
    simp only [bind, Except.bind]
    rw [if_neg (by simp only [nonZero] at h3; omega), (hsz h3.2.1).2 h4, (hsz h3.2.2.2).2 h5]
    simp only [Bool.false_eq_true, if_false]
    rw [if_pos (by simp only [depthOK] at h6; tauto)]
    rfl

/-- **C04.** A failed call leaves the destination exactly as it was. -/
theorem C04_error_untouched {W N : ℕ} {F : Format S} {L : Lib} {r : ResamplingFunction}
    {store into out : Image S} {e : Err} {A : AlphaOps S} {req : Bool}
    (h : genericResize W N F L r store into = some (.error e, out) ∨
      genericResizeWithAlpha W N F A L r store into req = some (.error e, out)) : out = into :=
  (result_is_check h).2 e rfl

/-- A failing and a succeeding call. -/
example : (genericResize (2 ^ 64) 1 (formatU8 1) demoLib .bilinear
    ⟨[1, 2], 1, 2, 1, 2, 8⟩ ⟨[7, 7], 1, 2, 0, 2, 8⟩ = some (.error (.bufferMismatch 0 2 0 1 2), ⟨[7, 7], 1, 2, 0, 2, 8⟩)) := by
  decide +kernel
example : genericResize (2 ^ 64) 1 (formatU8 1) demoLib .bilinear
    ⟨[10, 200], 1, 2, 1, 2, 8⟩ ⟨[7, 7, 7, 7], 1, 4, 1, 4, 8⟩ =
      some (.ok (), ⟨[10, 58, 153, 200], 1, 4, 1, 4, 8⟩) := by decide +kernel

/-! ### C06: intermediate sizes -/

/-- **C06 fails** on 32-bit targets: turning a `65536 × 1` plane (64 KiB) into `1 × 65536` passes both
size checks, but the intermediate image would need `2^32` elements. -/
theorem C06_violated :
    checkImageSizeOverflow (2 ^ 32) 65536 1 1 = false ∧ checkImageSizeOverflow (2 ^ 32) 1 65536 1 = false ∧
      ¬ 65536 * 65536 * 1 < 2 ^ 32 ∧
      tempImage (2 ^ 32) 1 0 65536 65536 0 = none := by
  refine ⟨by decide, by decide, by norm_num, ?_⟩
  unfold tempImage
  rw [if_pos (by norm_num)]

/-- **C06** holds whenever the width does not shrink or the height does not grow. -/
theorem C06_intermediate_fits_partial {W sw sh dw dh N : ℕ} (h1 : sw * sh * N < W) (h2 : dw * dh * N < W)
    (h : sw ≤ dw ∨ dh ≤ sh) : sw * dh * N < W := by
  rcases h with h | h
  · exact lt_of_le_of_lt (Nat.mul_le_mul_right _ (Nat.mul_le_mul_right _ h)) h2
  · exact lt_of_le_of_lt (Nat.mul_le_mul_right _ (Nat.mul_le_mul_left _ h)) h1

/-! ### C07: same size -/

/-- **C07.** For equal sizes an accepted call succeeds and copies every sample, for every filter
(`Nearest` included), format and pair of strides, with and without alpha handling. -/
theorem C07_same_size {W N : ℕ} {F : Format S} {L : Lib} {r : ResamplingFunction} {store into : Image S}
    {A : AlphaOps S} {req : Bool} (hN : 1 ≤ N)
    (hc : checkResize W N F.shouldHaveBitDepth store into = .ok ())
    (hw : store.width = into.width) (hh : store.height = into.height) :
    ∃ out, genericResize W N F L r store into = some (.ok (), out) ∧
      genericResizeWithAlpha W N F A L r store into req = some (.ok (), out) ∧ SameShape out into ∧
      ∀ y x c, y < into.height → x < into.width → c < N →
        sample out.buffer (into.strideOf N) N y x c = sample store.buffer (store.strideOf N) N y x c := by
  obtain ⟨c1, c2, c3, _⟩ := checkResize_ok.1 hc
  obtain ⟨out, o1, o2, o3, _⟩ := copiedToMut_spec hN c2 c1 hw hh c3.2.2.1
  refine ⟨out, ?_, ?_, o2, o3⟩
  · unfold genericResize; rw [hc]; simp only; rw [if_pos ⟨hw, hh⟩, o1]; rfl
  · unfold genericResizeWithAlpha; rw [hc]; simp only; rw [if_pos ⟨hw, hh⟩, o1]; rfl

example : genericResize (2 ^ 64) 1 (formatU8 1) demoLib .lanczos3
    ⟨[1, 2, 3, 4], 1, 2, 2, 2, 8⟩ ⟨[9, 9, 9, 9, 9, 9], 1, 2, 2, 3, 8⟩ =
      some (.ok (), ⟨[1, 2, 9, 3, 4, 9], 1, 2, 2, 3, 8⟩) := by decide +kernel

/-! ### C08, C11: padding and strides -/

/-- **C08 fails** for same-size copies (the padding of the source overwrites the padding of the
destination) and for Nearest (rows are laid out without the stride). -/
theorem C08_violated :
    (∃ (store into out : Image ℕ), genericResize (2 ^ 64) 1 (formatU8 1) demoLib .bilinear store into = some (.ok (), out) ∧
      store.width = into.width ∧ store.height = into.height ∧ ¬ PaddingKept 1 into out) ∧
    (∃ (store into out : Image ℕ), genericResize (2 ^ 64) 1 (formatU8 1) demoLib .nearest store into = some (.ok (), out) ∧
      ¬ PaddingKept 1 into out) := by
  constructor
  · refine ⟨⟨[1, 2, 3, 4], 1, 1, 2, 2, 8⟩, ⟨[7, 7, 7, 7], 1, 1, 2, 2, 8⟩, ⟨[1, 2, 3, 4], 1, 1, 2, 2, 8⟩,
      by decide +kernel, rfl, rfl, ?_⟩
    intro h
    have := h 1 (by
      rintro ⟨y, x, c, hy, hx, hc, hp⟩
      simp only [Image.strideOf] at hp hy hx
      have : x = 0 := by omega
      have : c = 0 := by omega
      subst x c
      rw [if_neg (by norm_num)] at hp; omega)
    revert this; decide
  · refine ⟨⟨[1], 1, 1, 1, 1, 8⟩, ⟨[7, 7, 7, 7], 1, 1, 2, 2, 8⟩, ⟨[1, 1, 1, 1], 1, 1, 2, 2, 8⟩,
      by decide +kernel, ?_⟩
    intro h
    have := h 1 (by
      rintro ⟨y, x, c, hy, hx, hc, hp⟩
      simp only [Image.strideOf] at hp hy hx
      have : x = 0 := by omega
      have : c = 0 := by omega
      subst x c
      rw [if_neg (by norm_num)] at hp; omega)
    revert this; decide

/-- **C11 fails**: enlarging a `1 × 2` plane with one padding element (value 99) per row by Nearest
puts the padding into the picture. -/
theorem C11_violated :
    genericResize (2 ^ 64) 1 (formatU8 1) demoLib .nearest ⟨[1, 99, 2, 99], 1, 1, 2, 2, 8⟩
      ⟨[0, 0, 0, 0], 1, 1, 4, 1, 8⟩ = some (.ok (), ⟨[1, 1, 1, 99], 1, 1, 4, 1, 8⟩) := by
  decide +kernel

/-- **C11** holds for packed images: destination pixel `(x, y)` is the source pixel given by the row and
column maps, both addressed with the strides. -/
theorem C11_packed_partial {W N : ℕ} {F : Format S} {L : Lib} {store into : Image S} (hN : 1 ≤ N)
    (hc : checkResize W N F.shouldHaveBitDepth store into = .ok ())
    (hs : store.strideOf N = store.width * N) (hd : into.strideOf N = into.width * N)
    (hw : store.width ≤ 2 ^ 24) (hh : store.height ≤ 2 ^ 24)
    (hne : store.width ≠ into.width ∨ store.height ≠ into.height) :
    ∃ out, genericResize W N F L .nearest store into = some (.ok (), out) ∧ SameShape out into ∧
      ∀ y x c, y < into.height → x < into.width → c < N →
        sample out.buffer (into.strideOf N) N y x c = sample store.buffer (store.strideOf N) N
          (nearestIndex F32.rnd store.height into.height y) (nearestIndex F32.rnd store.width into.width x) c := by
  obtain ⟨c1, c2, c3, _⟩ := checkResize_ok.1 hc
  obtain ⟨s1, _, _⟩ := validate_ok c2
  obtain ⟨d1, _, _⟩ := validate_ok c1
  rw [hs] at s1
  rw [hd] at d1
  obtain ⟨b, b1, _, _, _, _, b2⟩ := C10_whole_pixels N store.width store.height into.width into.height
    store.buffer into.buffer hN ⟨c3.1, hw⟩ ⟨c3.2.1, hh⟩ c3.2.2.1 d1 s1
  obtain ⟨b', b1', bl⟩ := C09_no_oob_partial N store.width store.height into.width into.height
    store.buffer into.buffer hN ⟨c3.1, hw⟩ ⟨c3.2.1, hh⟩ c3.2.2.1 (by rw [s1]; exact le_of_eq (by ring))
  rw [b1] at b1'
  obtain rfl := Option.some.inj b1'
  refine ⟨{ into with buffer := b }, ?_, ⟨rfl, rfl, rfl, rfl, rfl, bl⟩, ?_⟩
  · unfold genericResize
    rw [hc]
    simp only
    rw [if_neg (by tauto), if_true]
    unfold resizeByNearest
    rw [b1]; rfl
  · intro y x c hy hx hcc
    rw [hs, hd]
    exact b2 y x c hy hx hcc

example : genericResize (2 ^ 64) 1 (formatU8 1) demoLib .nearest ⟨[1, 2], 1, 1, 2, 1, 8⟩
      ⟨[0, 0, 0, 0], 1, 1, 4, 1, 8⟩ = some (.ok (), ⟨[1, 1, 1, 2], 1, 1, 4, 1, 8⟩) := by
  decide +kernel

/-! ### C21: the full 8-bit resize -/

/-- The table a scaler uses, and its 8-bit quantisation. -/
def IsTable (L : Lib) (r : ResamplingFunction) (inn out : ℕ) (q : FilterWeights ℤ) : Prop :=
  ∃ fw, tableOf L r inn out = some fw ∧ q = numericalApproximation F32.rnd fw

/-- An accepted 8-bit convolution resize. `noOverflow` holds for example when no window has more than
256 taps (`noOverflow_of_taps`). -/
structure Accepted (W N : ℕ) (L : Lib) (r : ResamplingFunction) (store into : Image ℕ) : Prop where
  channels : 1 ≤ N ∧ N ≤ 4
  checked : checkResize W N false store into = .ok ()
  filter : r ≠ .nearest
  sizes : store.width ≠ into.width ∨ store.height ≠ into.height
  small : store.width ≤ 2 ^ 23 ∧ store.height ≤ 2 ^ 23
  area : r = .area → into.width ≤ 2 ^ 22 ∧ into.height ≤ 2 ^ 22
  fits : store.width * into.height * N < W
  bytes : ∀ v ∈ store.buffer, v ≤ 255
  noOverflow : (∀ q, IsTable L r store.height into.height q → NoOverflow q into.height 255) ∧
    (∀ q, IsTable L r store.width into.width q → NoOverflow q into.width 255)

theorem noOverflow_of_taps {L : Lib} {r : ResamplingFunction} {inn out : ℕ} {q : FilterWeights ℤ}
    (h1 : 1 ≤ inn) (h2 : inn ≤ 2 ^ 23) (ha : r = .area → out ≤ 2 ^ 22) (hq : IsTable L r inn out q)
    (ht : q.kernelSize ≤ 256) : NoOverflow q out 255 := by
  obtain ⟨fw, e, rfl⟩ := hq
  obtain ⟨fw', e', v, _, _, hr, _⟩ := C17_quantised L r inn out h1 h2 ha
  unfold tableOf at e
  rw [e'] at e
  obtain rfl := Option.some.inj e
  have v := v
  refine C24_i16_256_taps v ?_ fun i hi => le_trans (v.size_le i hi) ht
  intro w hw
  obtain ⟨i, hi, rfl⟩ := List.getElem_of_mem hw
  have := hr 0 i
  unfold FilterWeights.weight at this
  rw [Nat.zero_mul, Nat.zero_add, List.getD_eq_getElem?_getD, List.getElem?_eq_getElem hi] at this
  exact this

/-- The value of the vertical pass. -/
def vU8 (q : FilterWeights ℤ) (i : ℕ) (p : ℕ → ℕ) : ℕ := fixedFloor 255 (q.bound i).size (fun k => q.weight i k) p
/-- The value of the horizontal pass. -/
def hU8 (q : FilterWeights ℤ) (i : ℕ) (p : ℕ → ℕ) : ℕ := fixedRound 255 (q.bound i).size (fun k => q.weight i k) p

theorem px_pxD (buf : List ℕ) (stride N y x c : ℕ) : px buf stride N y x c = (pxD 0 buf stride N y x c : ℕ) := rfl

theorem passOK_u8 {N : ℕ} (hN : 1 ≤ N ∧ N ≤ 4) (d : ℕ) :
    PassOK N (formatU8 N) d (· ≤ 255)
      (fun fw out => PlainShape fw out ∧ NoOverflow (numericalApproximation F32.rnd fw) out 255)
      (fun fw => vU8 (numericalApproximation F32.rnd fw)) (fun fw => hU8 (numericalApproximation F32.rnd fw)) := by
  constructor
  · intro src dst fw hs hd hw hdw _ hT hO hg
    obtain ⟨out, o1, o2, o3, o4⟩ := C19_vertical_pass (hi := 255) hN.1 hs hd hw hdw (hO.1.q_valid hT) hg hO.2
    exact ⟨out, o1, o2, o3, fun y x c hy hx hc => by rw [o4 y x c hy hx hc]; rfl⟩
  · intro src dst fw hs hd hh hsw hdw _ hT hO hg
    obtain ⟨out, o1, o2, o3, o4⟩ := C18_horizontal_pass (hi := 255) hN hs hd hh hsw hdw (hO.1.q_valid hT) hg hO.2
    exact ⟨out, o1, o2, o3, fun y x c hy hx hc => by rw [o4 y x c hy hx hc]; rfl⟩
  · intro fw i p; exact clamp_le _ _
  · intro fw i p p' _ h
    simp only [vU8, fixedFloor]
    congr 2
    exact wsum_congr (fun _ _ => rfl) fun k hk => by rw [h k hk]
  · intro fw i p p' _ h
    simp only [hU8, fixedRound]
    congr 2
    exact wsum_congr (fun _ _ => rfl) fun k hk => by rw [h k hk]

theorem table_exists (L : Lib) (r : ResamplingFunction) {inn out : ℕ} (h1 : 1 ≤ inn) (h2 : inn ≤ 2 ^ 23)
    (ha : r = .area → out ≤ 2 ^ 22) :
    ∃ fw, tableOf L r inn out = some fw ∧ ValidTable fw inn out ∧ PlainShape fw out := by
  obtain ⟨fw, e, v⟩ := C13_windows_partial L r inn out h1 h2 ha
  obtain ⟨fw', e', _, a, d, _⟩ := C14_padding L r inn out h1 h2 ha
  rw [e] at e'
  obtain rfl := Option.some.inj e'
  exact ⟨fw, e, v, a.symm, d⟩

/-- **C21.** An accepted 8-bit resize succeeds; there are quantised tables `qv`, `qh` (the ones computed
for the two dimensions, valid windows) such that every sample of the result is the horizontal
fixed point sum of the vertical fixed point sums of the same channel of the source — only the passes
whose dimension changes are applied — and nothing outside the pixels is written. -/
theorem C21_separable {W N : ℕ} {L : Lib} {r : ResamplingFunction} {store into : Image ℕ}
    (h : Accepted W N L r store into) :
    ∃ qv qh out, IsTable L r store.height into.height qv ∧ IsTable L r store.width into.width qh ∧
      ValidTable qv store.height into.height ∧ ValidTable qh store.width into.width ∧
      genericResize W N (formatU8 N) L r store into = some (.ok (), out) ∧
      SameShape out into ∧ PaddingKept N into out ∧
      ∀ y x c, y < into.height → x < into.width → c < N →
        sample out.buffer (into.strideOf N) N y x c = some
          (separable store.width store.height into.width into.height
            (fun i => (qv.bound i).start)
            (fun i p => fixedFloor 255 (qv.bound i).size (fun k => qv.weight i k) p)
            (fun i => (qh.bound i).start)
            (fun i p => fixedRound 255 (qh.bound i).size (fun k => qh.weight i k) p)
            (fun y x => pxD 0 store.buffer (store.strideOf N) N y x c) y x) := by
  obtain ⟨c1, c2, c3, _⟩ := checkResize_ok.1 h.checked
  obtain ⟨vf, ev, Tv, Sv⟩ := table_exists L r (out := into.height) c3.2.1 h.small.2 (fun ha => (h.area ha).2)
  obtain ⟨hf, eh, Th, Sh⟩ := table_exists L r (out := into.width) c3.1 h.small.1 (fun ha => (h.area ha).1)
  obtain ⟨out, o1, o2, o3, o4⟩ := convolve_spec (W := W) (passOK_u8 h.channels into.bitDepth) h.channels.1
    (table := tableOf L r) c2 c1 c3.1 c3.2.2.1 rfl h.sizes h.fits ev eh Tv Th
    ⟨Sv, h.noOverflow.1 _ ⟨vf, ev, rfl⟩⟩ ⟨Sh, h.noOverflow.2 _ ⟨hf, eh, rfl⟩⟩ h.bytes
  refine ⟨_, _, out, ⟨vf, ev, rfl⟩, ⟨hf, eh, rfl⟩, Sv.q_valid Tv, Sh.q_valid Th,
    genericResize_conv h.checked h.filter h.sizes o1, o2, o3, o4⟩

/-- A padded 2-channel image, both dimensions change. -/
def Demo.rsrc : Image ℕ :=
  { buffer := (List.range 21).map (· * 12), channels := 2, width := 3, height := 3, stride := 7, bitDepth := 8 }
def Demo.rdst : Image ℕ :=
  { buffer := List.replicate 22 9, channels := 2, width := 5, height := 2, stride := 11, bitDepth := 8 }

theorem Demo.accepted : Accepted (2 ^ 64) 2 demoLib .bilinear Demo.rsrc Demo.rdst := by
  constructor
  · decide
  · decide +kernel
  · decide
  · decide
  · decide
  · simp
  · decide
  · decide
  · constructor
    · intro q hq
      refine noOverflow_of_taps (by decide) (by decide) (by simp) hq ?_
      obtain ⟨fw, e, rfl⟩ := hq
      have : (tableOf demoLib .bilinear Demo.rsrc.height Demo.rdst.height).map (·.kernelSize) = some 3 := by
        decide +kernel
      rw [e] at this
      show fw.kernelSize ≤ 256
      simp at this; omega
    · intro q hq
      refine noOverflow_of_taps (by decide) (by decide) (by simp) hq ?_
      obtain ⟨fw, e, rfl⟩ := hq
      have : (tableOf demoLib .bilinear Demo.rsrc.width Demo.rdst.width).map (·.kernelSize) = some 2 := by
        decide +kernel
      rw [e] at this
      show fw.kernelSize ≤ 256
      simp at this; omega

example : ∃ out, genericResize (2 ^ 64) 2 (formatU8 2) demoLib .bilinear Demo.rsrc Demo.rdst =
    some (.ok (), out) ∧ PaddingKept 2 Demo.rdst out := by
  obtain ⟨_, _, out, _, _, _, _, h1, _, h2, _⟩ := C21_separable Demo.accepted
  exact ⟨out, h1, h2⟩

/-- **C08 for convolution filters**: row padding of the destination is never written. -/
theorem C08_convolution_partial {W N : ℕ} {L : Lib} {r : ResamplingFunction} {store into : Image ℕ}
    (h : Accepted W N L r store into) :
    ∃ out, genericResize W N (formatU8 N) L r store into = some (.ok (), out) ∧ PaddingKept N into out := by
  obtain ⟨_, _, out, _, _, _, _, h1, _, h2, _⟩ := C21_separable h
  exact ⟨out, h1, h2⟩

/-! ### C25, C26 -/

/-- The pixel part of C21 for a known result. -/
theorem result_eq {W N : ℕ} {L : Lib} {r : ResamplingFunction} {store into out : Image ℕ}
    {qv qh : FilterWeights ℤ} (h : Accepted W N L r store into)
    (hv : IsTable L r store.height into.height qv) (hh : IsTable L r store.width into.width qh)
    (ho : genericResize W N (formatU8 N) L r store into = some (.ok (), out)) :
    ValidTable qv store.height into.height ∧ ValidTable qh store.width into.width ∧
      ∀ y x c, y < into.height → x < into.width → c < N →
        sample out.buffer (into.strideOf N) N y x c = some
          (separable store.width store.height into.width into.height
            (fun i => (qv.bound i).start) (vU8 qv) (fun i => (qh.bound i).start) (hU8 qh)
            (fun y x => pxD 0 store.buffer (store.strideOf N) N y x c) y x) := by
  obtain ⟨qv', qh', out', tv, th, Tv, Th, o1, _, _, o4⟩ := C21_separable h
  rw [o1] at ho
  obtain rfl : out' = out := by simpa using ho
  obtain ⟨_, e1, rfl⟩ := hv
  obtain ⟨_, e2, rfl⟩ := tv
  rw [e1] at e2
  obtain rfl := Option.some.inj e2
  obtain ⟨_, e3, rfl⟩ := hh
  obtain ⟨_, e4, rfl⟩ := th
  rw [e3] at e4
  obtain rfl := Option.some.inj e4
  exact ⟨Tv, Th, o4⟩

/-- Pixel formulas agree if the samples inside the window agree. -/
theorem separable_congr {sw sh dw dh : ℕ} {qv qh : FilterWeights ℤ} {p p' : ℕ → ℕ → ℕ} {y x : ℕ}
    (h : ∀ y' x', (if sh = dh then y' = y else (qv.bound y).start ≤ y' ∧ y' < (qv.bound y).start + (qv.bound y).size) →
      (if sw = dw then x' = x else (qh.bound x).start ≤ x' ∧ x' < (qh.bound x).start + (qh.bound x).size) →
      p y' x' = p' y' x') :
    separable sw sh dw dh (fun i => (qv.bound i).start) (vU8 qv) (fun i => (qh.bound i).start) (hU8 qh) p y x =
      separable sw sh dw dh (fun i => (qv.bound i).start) (vU8 qv) (fun i => (qh.bound i).start) (hU8 qh) p' y x := by
  have hcol : ∀ x', (if sw = dw then x' = x else (qh.bound x).start ≤ x' ∧ x' < (qh.bound x).start + (qh.bound x).size) →
      (if sh = dh then p y x' else vU8 qv y (fun k => p ((qv.bound y).start + k) x')) =
        (if sh = dh then p' y x' else vU8 qv y (fun k => p' ((qv.bound y).start + k) x')) := by
    intro x' hx'
    split_ifs with hd
    · exact h y x' (by rw [if_pos hd]) hx'
    · simp only [vU8, fixedFloor]
      congr 2
      refine wsum_congr (fun _ _ => rfl) fun k hk => ?_
      rw [h _ x' (by rw [if_neg hd]; omega) hx']
  unfold separable
  simp only
  by_cases hd : sw = dw
  · rw [if_pos hd, if_pos hd]
    exact hcol x (by rw [if_pos hd])
  · rw [if_neg hd, if_neg hd]
    simp only [hU8, fixedRound]
    congr 2
    refine wsum_congr (fun _ _ => rfl) fun k hk => ?_
    rw [hcol ((qh.bound x).start + k) (by rw [if_neg hd]; omega)]

/-- **C25.** Channels do not mix: if channel `c` of an `N`-channel image and channel `c'` of an
`N'`-channel image (for instance a single plane) hold the same samples, the results of resizing the
two images to the same size hold the same samples in those channels — whatever the other channels,
strides and paddings are. -/
theorem C25_channels_independent {W N N' : ℕ} {L : Lib} {r : ResamplingFunction}
    {store into store' into' out out' : Image ℕ} {c c' : ℕ}
    (h : Accepted W N L r store into) (h' : Accepted W N' L r store' into') (hc : c < N) (hc' : c' < N')
    (hsz : store.width = store'.width ∧ store.height = store'.height)
    (hdz : into.width = into'.width ∧ into.height = into'.height)
    (hp : ∀ y x, y < store.height → x < store.width →
      sample store.buffer (store.strideOf N) N y x c = sample store'.buffer (store'.strideOf N') N' y x c')
    (ho : genericResize W N (formatU8 N) L r store into = some (.ok (), out))
    (ho' : genericResize W N' (formatU8 N') L r store' into' = some (.ok (), out')) :
    ∀ y x, y < into.height → x < into.width →
      sample out.buffer (into.strideOf N) N y x c = sample out'.buffer (into'.strideOf N') N' y x c' := by
  obtain ⟨qv, qh, _, tv, th, _⟩ := C21_separable h
  obtain ⟨Tv, Th, e⟩ := result_eq h tv th ho
  obtain ⟨_, _, e'⟩ := result_eq h' (by rw [← hsz.2, ← hdz.2]; exact tv) (by rw [← hsz.1, ← hdz.1]; exact th) ho'
  intro y x hy hx
  rw [e y x c hy hx hc, e' y x c' (hdz.2 ▸ hy) (hdz.1 ▸ hx) hc', ← hsz.1, ← hsz.2, ← hdz.1, ← hdz.2]
  congr 1
  apply separable_congr
  intro y' x' h1 h2
  simp only [pxD]
  rw [hp]
  · split_ifs at h1 with hd
    · omega
    · have := Tv.inside y hy; omega
  · split_ifs at h2 with hd
    · omega
    · have := Th.inside x hx; omega

/-- **C26.** An output pixel depends only on the source pixels in its window. -/
theorem C26_locality {W N : ℕ} {L : Lib} {r : ResamplingFunction}
    {store store' into out out' : Image ℕ} {qv qh : FilterWeights ℤ} {y x : ℕ}
    (h : Accepted W N L r store into) (h' : Accepted W N L r store' into)
    (hsz : store.width = store'.width ∧ store.height = store'.height)
    (tv : IsTable L r store.height into.height qv) (th : IsTable L r store.width into.width qh)
    (hy : y < into.height) (hx : x < into.width)
    (hp : ∀ y' x' c,
      (if store.height = into.height then y' = y
        else (qv.bound y).start ≤ y' ∧ y' < (qv.bound y).start + (qv.bound y).size) →
      (if store.width = into.width then x' = x
        else (qh.bound x).start ≤ x' ∧ x' < (qh.bound x).start + (qh.bound x).size) → c < N →
      sample store.buffer (store.strideOf N) N y' x' c = sample store'.buffer (store'.strideOf N) N y' x' c)
    (ho : genericResize W N (formatU8 N) L r store into = some (.ok (), out))
    (ho' : genericResize W N (formatU8 N) L r store' into = some (.ok (), out')) :
    ∀ c, c < N →
      sample out.buffer (into.strideOf N) N y x c = sample out'.buffer (into.strideOf N) N y x c := by
  obtain ⟨Tv, Th, e⟩ := result_eq h tv th ho
  obtain ⟨_, _, e'⟩ := result_eq h' (by rw [← hsz.2]; exact tv) (by rw [← hsz.1]; exact th) ho'
  intro c hc
  rw [e y x c hy hx hc, e' y x c hy hx hc, ← hsz.1, ← hsz.2]
  congr 1
  apply separable_congr
  intro y' x' h1 h2
  simp only [pxD]
  rw [hp y' x' c h1 h2 hc]

/-! ### C29: monotonicity -/

theorem clamp_mono (hi : ℕ) {a b : ℤ} (h : a ≤ b) : clamp hi a ≤ clamp hi b := by
  unfold clamp; omega

theorem fixedFloor_mono {hi n : ℕ} {w : ℕ → ℤ} {p p' : ℕ → ℕ} (hw : ∀ k, 0 ≤ w k)
    (hp : ∀ k, k < n → p k ≤ p' k) : fixedFloor hi n w p ≤ fixedFloor hi n w p' := by
  unfold fixedFloor fixFloor
  apply clamp_mono
  apply Int.floor_le_floor
  have : wsum n w (fun k => (p k : ℤ)) ≤ wsum n w (fun k => (p' k : ℤ)) :=
    sum_le_sum fun k hk => mul_le_mul_of_nonneg_left (Int.ofNat_le.2 (hp k (by simpa using hk))) (hw k)
  have : ((wsum n w (fun k => (p k : ℤ)) : ℤ) : ℚ) ≤ wsum n w (fun k => (p' k : ℤ)) := by exact_mod_cast this
  linarith

theorem fixedRound_mono {hi n : ℕ} {w : ℕ → ℤ} {p p' : ℕ → ℕ} (hw : ∀ k, 0 ≤ w k)
    (hp : ∀ k, k < n → p k ≤ p' k) : fixedRound hi n w p ≤ fixedRound hi n w p' := by
  unfold fixedRound fixRound
  apply clamp_mono
  apply Int.floor_le_floor
  have : wsum n w (fun k => (p k : ℤ)) ≤ wsum n w (fun k => (p' k : ℤ)) :=
    sum_le_sum fun k hk => mul_le_mul_of_nonneg_left (Int.ofNat_le.2 (hp k (by simpa using hk))) (hw k)
  have : ((wsum n w (fun k => (p k : ℤ)) : ℤ) : ℚ) ≤ wsum n w (fun k => (p' k : ℤ)) := by exact_mod_cast this
  linarith

theorem separable_mono {sw sh dw dh : ℕ} {qv qh : FilterWeights ℤ} {p p' : ℕ → ℕ → ℕ} {y x : ℕ}
    (Tv : ValidTable qv sh dh) (Th : ValidTable qh sw dw) (hy : y < dh) (hx : x < dw)
    (hv : ∀ i k, 0 ≤ qv.weight i k) (hh : ∀ i k, 0 ≤ qh.weight i k)
    (h : ∀ y' x', y' < sh → x' < sw → p y' x' ≤ p' y' x') :
    separable sw sh dw dh (fun i => (qv.bound i).start) (vU8 qv) (fun i => (qh.bound i).start) (hU8 qh) p y x ≤
      separable sw sh dw dh (fun i => (qv.bound i).start) (vU8 qv) (fun i => (qh.bound i).start) (hU8 qh) p' y x := by
  have hcol : ∀ x', x' < sw →
      (if sh = dh then p y x' else vU8 qv y (fun k => p ((qv.bound y).start + k) x')) ≤
        (if sh = dh then p' y x' else vU8 qv y (fun k => p' ((qv.bound y).start + k) x')) := by
    intro x' hx'
    split_ifs with hd
    · exact h y x' (by omega) hx'
    · refine fixedFloor_mono (hv y) fun k hk => h _ _ ?_ hx'
      have := Tv.inside y hy; omega
  unfold separable
  simp only
  split_ifs with hd hd2 hd2
  · simpa [hd2] using hcol x (by omega)
  · simpa [hd2] using hcol x (by omega)
  · refine fixedRound_mono (hh x) fun k hk => ?_
    have := Th.inside x hx
    simpa [hd2] using hcol ((qh.bound x).start + k) (by omega)
  · refine fixedRound_mono (hh x) fun k hk => ?_
    have := Th.inside x hx
    simpa [hd2] using hcol ((qh.bound x).start + k) (by omega)

theorem table_nonneg {L : Lib} {r : ResamplingFunction} (hr : Averages L r) {inn out : ℕ} {q : FilterWeights ℤ}
    (h1 : 1 ≤ inn) (h2 : inn ≤ 2 ^ 23) (ha : r = .area → out ≤ 2 ^ 22) (hq : IsTable L r inn out q) (i k : ℕ) :
    0 ≤ q.weight i k := by
  obtain ⟨fw, e, rfl⟩ := hq
  obtain ⟨fw', e', v, s⟩ := table_exists L r (out := out) h1 h2 ha
  rw [e] at e'
  obtain rfl := Option.some.inj e'
  obtain ⟨fw', e', hn⟩ := C16_nonneg_partial L r hr inn out h1 h2 ha
  have e : generateWeights F32.rnd (filterOf F32.rnd L r) inn out = some fw := e
  rw [e] at e'
  obtain rfl := Option.some.inj e'
  rw [s.q_weight RoundOK.rnd v]
  exact quantise_nonneg RoundOK.rnd (weight_nonneg_of hn i k)

/-- **C29.** With an averaging filter, raising source samples never lowers an output sample (8-bit);
in particular outputs lie between the outputs for the constant images of the smallest and largest
source value (take those as the other source). -/
theorem C29_monotone {W N : ℕ} {L : Lib} {r : ResamplingFunction} (hr : Averages L r)
    {store store' into out out' : Image ℕ}
    (h : Accepted W N L r store into) (h' : Accepted W N L r store' into)
    (hsz : store.width = store'.width ∧ store.height = store'.height)
    (hp : ∀ y x c, y < store.height → x < store.width → c < N →
      px store.buffer (store.strideOf N) N y x c ≤ px store'.buffer (store'.strideOf N) N y x c)
    (ho : genericResize W N (formatU8 N) L r store into = some (.ok (), out))
    (ho' : genericResize W N (formatU8 N) L r store' into = some (.ok (), out')) :
    ∀ y x c, y < into.height → x < into.width → c < N →
      px out.buffer (into.strideOf N) N y x c ≤ px out'.buffer (into.strideOf N) N y x c := by
  obtain ⟨c1, c2, c3, _⟩ := checkResize_ok.1 h.checked
  obtain ⟨qv, qh, _, tv, th, _⟩ := C21_separable h
  obtain ⟨Tv, Th, e⟩ := result_eq h tv th ho
  obtain ⟨_, _, e'⟩ := result_eq h' (by rw [← hsz.2]; exact tv) (by rw [← hsz.1]; exact th) ho'
  intro y x c hy hx hc
  rw [px_pxD, px_pxD]
  unfold pxD
  rw [e y x c hy hx hc, e' y x c hy hx hc, ← hsz.1, ← hsz.2]
  simp only [Option.getD_some]
  exact_mod_cast separable_mono Tv Th hy hx
    (table_nonneg hr c3.2.1 h.small.2 (fun ha => (h.area ha).2) tv)
    (table_nonneg hr c3.1 h.small.1 (fun ha => (h.area ha).1) th)
    (fun y' x' hy' hx' => by
      have := hp y' x' c hy' hx' hc
      rw [px_pxD, px_pxD] at this
      exact_mod_cast this)

/-! ### C30: flat images -/

/-- **C30 fails**: doubling the height of a flat image (value 1) by Bilinear gives 0 in the first
and last row: the weight 1 is quantised to 32767/32768 and the vertical pass truncates. -/
theorem C30_violated (L : Lib) :
    genericResize (2 ^ 64) 1 (formatU8 1) L .bilinear ⟨[1, 1], 1, 1, 2, 1, 8⟩ ⟨[7, 7, 7, 7], 1, 1, 4, 1, 8⟩ =
      some (.ok (), ⟨[0, 1, 1, 0], 1, 1, 4, 1, 8⟩) := by
  show genericResize (2 ^ 64) 1 (formatU8 1) demoLib .bilinear ⟨[1, 1], 1, 1, 2, 1, 8⟩ ⟨[7, 7, 7, 7], 1, 1, 4, 1, 8⟩ =
      some (.ok (), ⟨[0, 1, 1, 0], 1, 1, 4, 1, 8⟩)
  decide +kernel

theorem wsum_const {n : ℕ} {w : ℕ → ℤ} (v : ℤ) : wsum n w (fun _ => v) = (∑ k ∈ range n, w k) * v := by
  unfold wsum; rw [sum_mul]

theorem flat_floor {n v : ℕ} {w : ℕ → ℤ} (hv : v ≤ 255)
    (hs : |(∑ k ∈ range n, w k) - 32768| ≤ 64) :
    fixedFloor 255 n w (fun _ => v) = v ∨ (1 ≤ v ∧ fixedFloor 255 n w (fun _ => v) = v - 1) := by
  unfold fixedFloor fixFloor
  rw [wsum_const]
  set s := ∑ k ∈ range n, w k with hsd
  rw [abs_le] at hs
  have e : ⌊(((s * (v : ℤ) : ℤ)) : ℚ) / 32768⌋ = s * v / 32768 := by
    have := Rat.floor_intCast_div_natCast (s * v) 32768
    push_cast at this ⊢
    exact this
  rw [e]
  have h1 : (s - 32768) * v ≤ 64 * 255 := by
    have : (s - 32768) * (v : ℤ) ≤ 64 * v := mul_le_mul_of_nonneg_right (by omega) (by omega)
    omega
  have h2 : -(64 * 255) ≤ (s - 32768) * (v : ℤ) := by
    have : (-64) * (v : ℤ) ≤ (s - 32768) * v := mul_le_mul_of_nonneg_right (by omega) (by omega)
    omega
  have h3 : s * (v : ℤ) = 32768 * v + (s - 32768) * v := by ring
  have h4 : v = 0 → (s - 32768) * (v : ℤ) = 0 := by rintro rfl; simp
  generalize (s - 32768) * (v : ℤ) = t at *
  rw [h3]
  unfold clamp
  rcases Nat.eq_zero_or_pos v with h0 | h0
  · left; have := h4 h0; subst this; omega
  · omega

theorem flat_round {n v : ℕ} {w : ℕ → ℤ} (hv : v ≤ 255)
    (hs : |(∑ k ∈ range n, w k) - 32768| ≤ 64) : fixedRound 255 n w (fun _ => v) = v := by
  unfold fixedRound fixRound
  rw [wsum_const]
  set s := ∑ k ∈ range n, w k with hsd
  rw [abs_le] at hs
  have e : ⌊(((s * (v : ℤ) : ℤ)) : ℚ) / 32768 + 1 / 2⌋ = (s * v + 16384) / 32768 := by
    have := Rat.floor_intCast_div_natCast (s * v + 16384) 32768
    push_cast at this ⊢
    rw [← this]; congr 1; ring
  rw [e]
  have h1 : (s - 32768) * v ≤ 64 * 255 := by
    have : (s - 32768) * (v : ℤ) ≤ 64 * v := mul_le_mul_of_nonneg_right (by omega) (by omega)
    omega
  have h2 : -(64 * 255) ≤ (s - 32768) * (v : ℤ) := by
    have : (-64) * (v : ℤ) ≤ (s - 32768) * v := mul_le_mul_of_nonneg_right (by omega) (by omega)
    omega
  have h3 : s * (v : ℤ) = 32768 * v + (s - 32768) * v := by ring
  generalize (s - 32768) * (v : ℤ) = t at *
  rw [h3]
  unfold clamp
  omega

/-- **C30, within one.** If the quantised weights of every window sum to `2^15` up to 64 units, a flat
image of value `v` becomes an image of values `v` and `v - 1`; with only the width changing it stays
exactly flat. -/
theorem C30_flat_partial {W N v : ℕ} {L : Lib} {r : ResamplingFunction} {store into out : Image ℕ}
    {qv qh : FilterWeights ℤ} (h : Accepted W N L r store into) (hv : v ≤ 255)
    (hflat : ∀ y x c, y < store.height → x < store.width → c < N →
      sample store.buffer (store.strideOf N) N y x c = some v)
    (tv : IsTable L r store.height into.height qv) (th : IsTable L r store.width into.width qh)
    (sv : ∀ i, i < into.height → |(∑ k ∈ range (qv.bound i).size, qv.weight i k) - 32768| ≤ 64)
    (sh : ∀ i, i < into.width → |(∑ k ∈ range (qh.bound i).size, qh.weight i k) - 32768| ≤ 64)
    (ho : genericResize W N (formatU8 N) L r store into = some (.ok (), out)) :
    ∀ y x c, y < into.height → x < into.width → c < N →
      sample out.buffer (into.strideOf N) N y x c = some v ∨
        (store.height ≠ into.height ∧ 1 ≤ v ∧ sample out.buffer (into.strideOf N) N y x c = some (v - 1)) := by
  obtain ⟨Tv, Th, e⟩ := result_eq h tv th ho
  intro y x c hy hx hc
  rw [e y x c hy hx hc]
  -- replace the samples by the constant
  have hs : separable store.width store.height into.width into.height
      (fun i => (qv.bound i).start) (vU8 qv) (fun i => (qh.bound i).start) (hU8 qh)
      (fun y x => pxD 0 store.buffer (store.strideOf N) N y x c) y x =
      separable store.width store.height into.width into.height
      (fun i => (qv.bound i).start) (vU8 qv) (fun i => (qh.bound i).start) (hU8 qh) (fun _ _ => v) y x := by
    apply separable_congr
    intro y' x' h1 h2
    simp only [pxD]
    rw [hflat y' x' c ?_ ?_ hc]
    · rfl
    · split_ifs at h1 with hd
      · omega
      · have := Tv.inside y hy; omega
    · split_ifs at h2 with hd
      · omega
      · have := Th.inside x hx; omega
  rw [hs]
  unfold separable
  simp only
  have hf := flat_floor hv (sv y hy)
  split_ifs with h1 h2 h2
  · left; rfl
  · rcases hf with hf | ⟨h0, hf⟩
    · left; unfold vU8; rw [hf]
    · right; refine ⟨h2, h0, ?_⟩; unfold vU8; rw [hf]
  · left; unfold hU8; rw [flat_round hv (sh x hx)]
  · rcases hf with hf | ⟨h0, hf⟩
    · left; unfold vU8 hU8; rw [hf, flat_round hv (sh x hx)]
    · right; refine ⟨h2, h0, ?_⟩
      unfold vU8 hU8
      rw [hf, flat_round (by omega) (sh x hx)]

/-! ### C22: no panic -/

/-- **C22.** An 8-bit resize call never panics or reads out of bounds — for every filter, Nearest
included, every pair of images (accepted or not) up to `2^23` pixels per source dimension (`Area`: also
`2^22` per destination dimension) whose intermediate image fits `usize` — whatever samples and
strides. -/
theorem C22_resize_no_panic {W N : ℕ} {L : Lib} {r : ResamplingFunction} {store into : Image ℕ}
    (hN : 1 ≤ N ∧ N ≤ 4) (hsm : store.width ≤ 2 ^ 23 ∧ store.height ≤ 2 ^ 23)
    (ha : r = .area → into.width ≤ 2 ^ 22 ∧ into.height ≤ 2 ^ 22)
    (hfit : store.width * into.height * N < W) :
    (genericResize W N (formatU8 N) L r store into).isSome := by
  unfold genericResize
  cases hc : checkResize W N (formatU8 N).shouldHaveBitDepth store into with
  | error e => rfl
  | ok u =>
    obtain ⟨c1, c2, c3, _⟩ := checkResize_ok.1 hc
    simp only
    split_ifs with h1 h2
    · obtain ⟨out, o1, _⟩ := copiedToMut_spec hN.1 c2 c1 h1.1 h1.2 c3.2.2.1
      rw [o1]; rfl
    · obtain ⟨s1, s2, _⟩ := validate_ok c2
      obtain ⟨b, b1, _⟩ := C09_no_oob_partial N store.width store.height into.width into.height
        store.buffer into.buffer hN.1 ⟨c3.1, by omega⟩ ⟨c3.2.1, by omega⟩ c3.2.2.1 (by
          rw [s1]
          calc store.width * store.height * N = store.height * (store.width * N) := by ring
            _ ≤ _ := Nat.mul_le_mul_left _ s2)
      unfold resizeByNearest
      rw [b1]; rfl
    · -- all buffers are `good`, overflow does not matter
      obtain ⟨vf, ev, Tv, Sv⟩ := table_exists L r (out := into.height) c3.2.1 hsm.2 (fun hA => (ha hA).2)
      obtain ⟨hf, eh, Th, Sh⟩ := table_exists L r (out := into.width) c3.1 hsm.1 (fun hA => (ha hA).1)
      have hcv : (convolve W N (formatU8 N) (tableOf L r) store into).isSome := by
        unfold convolve
        split_ifs with g1 g2
        · rw [tempImage_some hfit, ev, eh]
          simp only [Option.bind_eq_bind, Option.bind_some]
          obtain ⟨t, t1, t2, _⟩ := verticalFixed_raw (N := N) (hi := 255) (src := store)
            (dst := { buffer := List.replicate (store.width * into.height * N) 0, channels := N,
                      width := store.width, height := into.height, stride := store.width * N,
                      bitDepth := into.bitDepth }) hN.1 c2
            (packed_validate (by rw [List.length_replicate])) rfl c3.1 (Sv.q_valid (ρ := F32.rnd) Tv)
          have t1 : (formatU8 N).vertical store
            ⟨List.replicate (store.width * into.height * N) (formatU8 N).default, N, store.width,
              into.height, store.width * N, into.bitDepth⟩ vf = _ := t1
          rw [t1]
          simp only [Option.bind_some]
          simp only [List.length_replicate] at t2
          exact (C22_passes_no_panic (hi := 255) hN (packed_validate t2) c1 c3.1 c3.2.2.1).1 rfl (Sh.q_valid Th)
        · rw [ev]
          exact (C22_passes_no_panic (hi := 255) hN c2 c1 c3.1 c3.2.2.1).2 (by tauto) (Sv.q_valid Tv)
        · rw [eh]
          exact (C22_passes_no_panic (hi := 255) hN c2 c1 c3.1 c3.2.2.1).1 (by tauto) (Sh.q_valid Th)
      obtain ⟨d, hd⟩ := Option.isSome_iff_exists.1 hcv
      rw [hd]; rfl

example : (genericResize (2 ^ 64) 3 (formatU8 3) demoLib .lanczos3 ⟨List.replicate 30 200, 3, 5, 2, 15, 8⟩
    ⟨List.replicate 63 0, 3, 7, 3, 21, 8⟩).isSome :=
  C22_resize_no_panic (by norm_num) (by norm_num) (by simp) (by norm_num)

end PicScale
