import Verif.Model.Colors
import Verif.SpecColors
import Verif.Lemmas.Resize
import Verif.Lemmas.AlphaCompose

namespace PicScale

open Spec

variable {A B : Type}

theorem foldlM_range_inv {σ : Type} {f : σ → ℕ → Option σ} (P : ℕ → σ → Prop) {s0 : σ} (h0 : P 0 s0) :
    ∀ n, (∀ i s, i < n → P i s → ∃ s', f s i = some s' ∧ P (i + 1) s') →
      ∃ s', (List.range n).foldlM f s0 = some s' ∧ P n s'
  | 0, _ => ⟨s0, rfl, h0⟩
  | n + 1, h => by
    obtain ⟨s', e, p⟩ := foldlM_range_inv P h0 n (fun i s hi hp => h i s (by omega) hp)
    obtain ⟨s'', e2, p2⟩ := h n s' (by omega) p
    refine ⟨s'', ?_, p2⟩
    rw [List.range_succ, List.foldlM_append, e]
    simp [e2]

theorem pixelAt_length {S : Type} {buf : List S} {stride N y x : ℕ} (h : y * stride + x * N + N ≤ buf.length) :
    (pixelAt buf stride N y x).length = N := by
  unfold pixelAt
  simp
  omega

theorem pixelAt_get {S : Type} {buf : List S} {stride N y x c : ℕ} (hc : c < N) :
    (pixelAt buf stride N y x)[c]? = sample buf stride N y x c := by
  unfold pixelAt sample
  rw [List.getElem?_take, if_pos hc, List.getElem?_drop]

/-- Pixels are equal if their samples are. -/
theorem pixelAt_ext {S : Type} {b b' : List S} {s s' N y y' x x' : ℕ}
    (h : ∀ c, c < N → sample b s N y x c = sample b' s' N y' x' c) : pixelAt b s N y x = pixelAt b' s' N y' x' := by
  apply List.ext_getElem?
  intro c
  by_cases hc : c < N
  · rw [pixelAt_get hc, pixelAt_get hc, h c hc]
  · unfold pixelAt
    rw [List.getElem?_take, List.getElem?_take, if_neg hc, if_neg hc]

/-- A pixel is determined by `N` sample equations. -/
theorem pixelAt_eq {S : Type} {b p : List S} {s N y x : ℕ} (hp : p.length = N)
    (h : ∀ c, c < N → sample b s N y x c = p[c]?) : pixelAt b s N y x = p := by
  apply List.ext_getElem?
  intro c
  by_cases hc : c < N
  · rw [pixelAt_get hc, h c hc]
  · unfold pixelAt
    rw [List.getElem?_take, if_neg hc]
    simp
    omega

theorem convertPixel_ok {N : ℕ} {f : List A → List B} (hf : KeepsLength N f) {src : List A} {dst : List B} {a b : ℕ}
    (ha : a + N ≤ src.length) (hb : b + N ≤ dst.length) :
    ∃ r, convertPixel N f src dst a b = some r ∧ r.length = dst.length ∧
      (∀ c, c < N → r[b + c]? = (f ((src.drop a).take N))[c]?) ∧
      (∀ p, (p < b ∨ b + N ≤ p) → r[p]? = dst[p]?) := by
  have hl : (f ((src.drop a).take N)).length = N := hf _ (by simp; omega)
  obtain ⟨r, e, h1, h2, h3⟩ := writeAt?_spec (l := dst) (a := b) (v := f ((src.drop a).take N)) (by omega)
  refine ⟨r, ?_, h1, fun c hc => h2 c (by omega), fun p hp => h3 p (by omega)⟩
  unfold convertPixel
  rw [slice?_eq_some (by omega) ha, show a + N - a = N by omega]
  simpa using e

/-- One row. -/
theorem convertRow_ok {N : ℕ} {f : List A → List B} (hf : KeepsLength N f) {src : List A} {dst : List B} {a b w : ℕ}
    (ha : a + w * N ≤ src.length) (hb : b + w * N ≤ dst.length) :
    ∃ r, (List.range w).foldlM (fun dst x => convertPixel N f src dst (a + x * N) (b + x * N)) dst = some r ∧
      r.length = dst.length ∧
      (∀ x c, x < w → c < N → r[b + x * N + c]? = (f ((src.drop (a + x * N)).take N))[c]?) ∧
      (∀ p, (p < b ∨ b + w * N ≤ p) → r[p]? = dst[p]?) := by
  refine foldlM_range_inv (f := fun dst x => convertPixel N f src dst (a + x * N) (b + x * N))
    (fun n r => r.length = dst.length ∧
      (∀ x c, x < n → c < N → r[b + x * N + c]? = (f ((src.drop (a + x * N)).take N))[c]?) ∧
      (∀ p, (p < b ∨ b + n * N ≤ p) → r[p]? = dst[p]?)) ?_ w ?_
  · exact ⟨rfl, by intro x c hx; omega, fun p _ => rfl⟩
  · intro i s hi ⟨h1, h2, h3⟩
    have hle : (i + 1) * N ≤ w * N := Nat.mul_le_mul_right N hi
    rw [Nat.add_mul, one_mul] at hle
    obtain ⟨r, e, g1, g2, g3⟩ := convertPixel_ok hf (src := src) (dst := s) (a := a + i * N) (b := b + i * N)
      (by omega) (by omega)
    refine ⟨r, e, by omega, ?_, ?_⟩
    · intro x c hx hc
      by_cases hxi : x = i
      · subst hxi; exact g2 c hc
      · have : (x + 1) * N ≤ i * N := Nat.mul_le_mul_right N (by omega)
        rw [Nat.add_mul, one_mul] at this
        rw [g3 _ (by omega), h2 x c (by omega) hc]
    · intro p hp
      rw [Nat.add_mul, one_mul] at hp
      rw [g3 p (by omega), h3 p (by omega)]

/-- A whole conversion with element strides `ss`, `ds`. -/
theorem convertRows_ok {N : ℕ} {f : List A → List B} (hf : KeepsLength N f) {src : List A} {dst : List B}
    {ss ds w h : ℕ} (hss : w * N ≤ ss) (hds : w * N ≤ ds) (hs : h * ss ≤ src.length) (hd : h * ds ≤ dst.length) :
    ∃ r, (List.range h).foldlM (fun dst y => (List.range w).foldlM (fun dst x =>
        convertPixel N f src dst (y * ss + x * N) (y * ds + x * N)) dst) dst = some r ∧
      r.length = dst.length ∧
      (∀ y x c, y < h → x < w → c < N → sample r ds N y x c = (f (pixelAt src ss N y x))[c]?) ∧
      (∀ y p, p < ds → w * N ≤ p ∨ h ≤ y → r[y * ds + p]? = dst[y * ds + p]?) := by
  refine foldlM_range_inv (f := fun dst y => (List.range w).foldlM (fun dst x =>
        convertPixel N f src dst (y * ss + x * N) (y * ds + x * N)) dst)
    (fun n r => r.length = dst.length ∧
      (∀ y x c, y < n → x < w → c < N → sample r ds N y x c = (f (pixelAt src ss N y x))[c]?) ∧
      (∀ y p, p < ds → w * N ≤ p ∨ n ≤ y → r[y * ds + p]? = dst[y * ds + p]?)) ?_ h ?_
  · exact ⟨rfl, by intro y x c hy; omega, fun _ _ _ _ => rfl⟩
  · intro i s hi ⟨h1, h2, h3⟩
    have l1 : (i + 1) * ss ≤ h * ss := Nat.mul_le_mul_right ss hi
    have l2 : (i + 1) * ds ≤ h * ds := Nat.mul_le_mul_right ds hi
    rw [Nat.add_mul, one_mul] at l1 l2
    obtain ⟨r, e, g1, g2, g3⟩ := convertRow_ok hf (src := src) (dst := s) (a := i * ss) (b := i * ds) (w := w)
      (by omega) (by omega)
    refine ⟨r, e, by omega, ?_, ?_⟩
    · intro y x c hy hx hc
      have hx' : (x + 1) * N ≤ w * N := Nat.mul_le_mul_right N hx
      rw [Nat.add_mul, one_mul] at hx'
      by_cases hyi : y = i
      · subst hyi; exact g2 x c hx hc
      · have : (y + 1) * ds ≤ i * ds := Nat.mul_le_mul_right ds (by omega)
        rw [Nat.add_mul, one_mul] at this
        rw [← h2 y x c (by omega) hx hc]
        unfold sample
        exact g3 _ (by omega)
    · intro y p hp hyp
      rw [← h3 y p hp (by omega)]
      apply g3
      rcases hyp with hyp | hyp
      · rcases lt_trichotomy y i with hlt | heq | hgt
        · have : (y + 1) * ds ≤ i * ds := Nat.mul_le_mul_right ds hlt
          rw [Nat.add_mul, one_mul] at this
          omega
        · subst heq; omega
        · have : (i + 1) * ds ≤ y * ds := Nat.mul_le_mul_right ds hgt
          rw [Nat.add_mul, one_mul] at this
          omega
      · have : (i + 1) * ds ≤ y * ds := Nat.mul_le_mul_right ds hyp
        rw [Nat.add_mul, one_mul] at this
        omega

theorem toU32_small {n : ℕ} (h : n < 2 ^ 32) : toU32 n = n := Nat.mod_eq_of_lt h

theorem mulU32_small {a b : ℕ} (h : a * b < 2 ^ 32) : mulU32 a b = some (a * b) := if_pos h


theorem pixels_flatMap_length {T : Type} {g : ℕ → List T} {l : ℕ} :
    ∀ n, (∀ i, i < n → (g i).length = l) → ((List.range n).flatMap g).length = n * l
  | 0, _ => by simp
  | n + 1, h => by
    rw [List.range_succ, List.flatMap_append, List.length_append, pixels_flatMap_length n (fun i hi => h i (by omega)),
      List.flatMap_cons, List.flatMap_nil, List.append_nil, h n (by omega), Nat.succ_mul]

theorem pixels_flatMap_get {T : Type} {g : ℕ → List T} {l i p : ℕ} (hp : p < l) :
    ∀ n, i < n → (∀ i, i < n → (g i).length = l) → ((List.range n).flatMap g)[i * l + p]? = (g i)[p]?
  | 0, h, _ => by omega
  | n + 1, hi, h => by
    have hl : ((List.range n).flatMap g).length = n * l := pixels_flatMap_length n (fun i hi => h i (by omega))
    rw [List.range_succ, List.flatMap_append, List.flatMap_cons, List.flatMap_nil, List.append_nil]
    by_cases e : i < n
    · have : (i + 1) * l ≤ n * l := Nat.mul_le_mul_right l e
      rw [Nat.succ_mul] at this
      rw [List.getElem?_append_left (by omega), pixels_flatMap_get hp n e (fun i hi => h i (by omega))]
    · obtain rfl : i = n := by omega
      rw [List.getElem?_append_right (by omega), hl]
      congr 1
      omega

/-- What a converted picture contains. -/
theorem mapPicture_spec {N : ℕ} {f : List A → List B} (hf : KeepsLength N f) {img : Image A} {d : ℕ}
    (hv : img.width * N ≤ img.strideOf N) (hl : img.height * img.strideOf N ≤ img.buffer.length) :
    (mapPicture N f img d).buffer.length = img.width * img.height * N ∧
    ∀ y x c, y < img.height → x < img.width → c < N →
      sample (mapPicture N f img d).buffer (img.width * N) N y x c = (f (pixelAt img.buffer (img.strideOf N) N y x))[c]? := by
  have h1 : ∀ y x, y < img.height → x < img.width → (f (pixelAt img.buffer (img.strideOf N) N y x)).length = N := by
    intro y x hy hx
    apply hf
    apply pixelAt_length
    have h1 : (y + 1) * img.strideOf N ≤ img.height * img.strideOf N := Nat.mul_le_mul_right _ hy
    have h2 : (x + 1) * N ≤ img.width * N := Nat.mul_le_mul_right _ hx
    rw [Nat.succ_mul] at h1 h2
    omega
  have h2 : ∀ y, y < img.height → ((List.range img.width).flatMap fun x =>
      f (pixelAt img.buffer (img.strideOf N) N y x)).length = img.width * N := fun y hy =>
    pixels_flatMap_length _ (fun x hx => h1 y x hy hx)
  constructor
  · show (List.flatMap _ _).length = _
    rw [pixels_flatMap_length _ h2]
    ring
  · intro y x c hy hx hc
    have h3 : (x + 1) * N ≤ img.width * N := Nat.mul_le_mul_right _ hx
    rw [Nat.succ_mul] at h3
    unfold sample mapPicture
    dsimp only
    rw [Nat.add_assoc, pixels_flatMap_get (by omega) _ hy h2, pixels_flatMap_get hc _ hx (fun x hx => h1 y x hy hx)]

theorem unpadded_strideOf {S : Type} {N : ℕ} {img : Image S} : (unpadded N img).strideOf N = img.width * N := packed_strideOf

/-- What one call of a colour scaler's resize method needs: an accepted call whose row lengths fit `u32` (in
bytes) and conversions that map pixels of `N` samples to pixels of `N` samples. -/
structure ColorFits (N : ℕ) (C : ColorSpace A B) (store into : Image A) : Prop where
  channels : store.channels = N
  pos : 1 ≤ N
  enc : KeepsLength N C.enc
  dec : KeepsLength N C.dec
  sizeOf : 1 ≤ C.sizeOf
  src : store.width * N * C.sizeOf < 2 ^ 32 ∧ store.height < 2 ^ 32
  dst : into.width * N * C.sizeOf < 2 ^ 32 ∧ into.height < 2 ^ 32

theorem row_fits {w N k : ℕ} (hN : 1 ≤ N) (hk : 1 ≤ k) (h : w * N * k < 2 ^ 32) : w < 2 ^ 32 ∧ w * N < 2 ^ 32 := by
  have h1 : w * 1 ≤ w * N := Nat.mul_le_mul_left w hN
  have h2 : w * N * 1 ≤ w * N * k := Nat.mul_le_mul_left _ hk
  omega

/-- The picture the inner resize is given. -/
def encoded (N : ℕ) (C : ColorSpace A B) (store into : Image A) : Image B :=
  mapPicture N C.enc (unpadded N store) (if C.depthFromSource then store.bitDepth else into.bitDepth)

theorem encodeStage_eq {W N : ℕ} {C : ColorSpace A B} {store into : Image A} (h : ColorFits N C store into)
    (hv : store.validate N = .ok ()) (hfit : store.width * store.height * N < W) (hw : 1 ≤ store.width) :
    encodeStage W N C store into = some (encoded N C store into) ∧
    (encoded N C store into).buffer.length = store.width * store.height * N := by
  obtain ⟨l1, l2⟩ := validate_facts hv
  obtain ⟨u1, u2⟩ := row_fits h.pos h.sizeOf h.src.1
  have hlen : store.height * (store.width * N) ≤ store.buffer.length := by
    rw [l1, Nat.mul_comm (store.strideOf N)]
    exact Nat.mul_le_mul_left _ l2
  obtain ⟨b, b1, b2, b3, b4⟩ := convertRows_ok h.enc (src := store.buffer)
    (dst := List.replicate (store.width * store.height * N) C.default) (ss := store.width * N) (ds := store.width * N)
    (w := store.width) (h := store.height) le_rfl le_rfl hlen (by rw [List.length_replicate]; apply le_of_eq; ring)
  rw [List.length_replicate] at b2
  obtain ⟨m1, m2⟩ := mapPicture_spec h.enc (img := unpadded N store)
    (d := if C.depthFromSource then store.bitDepth else into.bitDepth) (by rw [unpadded_strideOf]; exact le_rfl)
    (by rw [unpadded_strideOf]; exact hlen)
  rw [unpadded_strideOf] at m2
  refine ⟨?_, m1⟩
  unfold encodeStage convertPixels
  rw [tempImage_some hfit, toU32_small u1, toU32_small h.src.2, mulU32_small u2]
  simp only [Option.bind_eq_bind, Option.bind_some]
  rw [mulU32_small h.src.1]
  simp only [Option.bind_some]
  rw [Nat.div_one, Nat.mul_div_cancel _ h.sizeOf, b1]
  simp only [Option.bind_some]
  have hb : b = (encoded N C store into).buffer := by
    apply List.ext_getElem?
    intro i
    by_cases hi : i < store.width * store.height * N
    · obtain ⟨y, x, c, hy, hx, hc, rfl⟩ := packed_pixel h.pos hw hi
      have e1 := b3 y x c hy hx hc
      have e2 := m2 y x c hy hx hc
      exact e1.trans e2.symm
    · rw [List.getElem?_eq_none (by omega), List.getElem?_eq_none (by
        show (mapPicture _ _ _ _).buffer.length ≤ i
        rw [m1]
        show store.width * store.height * N ≤ i
        omega)]
  rw [hb]
  rfl

theorem decodeStage_ok {N : ℕ} {C : ColorSpace A B} {store into : Image A} {work : Image B} (h : ColorFits N C store into)
    (hv : into.validate N = .ok ()) (w1 : work.width = into.width) (w2 : work.height = into.height)
    (w3 : work.buffer.length = into.width * N * into.height) :
    ∃ out, decodeStage N C work into = some out ∧ SameShape out into ∧
      (∀ y x, y < into.height → x < into.width →
        pixelAt out.buffer (into.width * N) N y x = C.dec (pixelAt work.buffer (into.width * N) N y x)) ∧
      (∀ p, into.width * N * into.height ≤ p → out.buffer[p]? = into.buffer[p]?) := by
  obtain ⟨l1, l2⟩ := validate_facts hv
  obtain ⟨u1, u2⟩ := row_fits h.pos h.sizeOf h.dst.1
  have hlen : into.height * (into.width * N) ≤ into.buffer.length := by
    rw [l1, Nat.mul_comm (into.strideOf N)]
    exact Nat.mul_le_mul_left _ l2
  obtain ⟨b, b1, b2, b3, b4⟩ := convertRows_ok h.dec (src := work.buffer)
    (dst := into.buffer) (ss := into.width * N) (ds := into.width * N)
    (w := into.width) (h := into.height) le_rfl le_rfl (by rw [w3, Nat.mul_comm]) hlen
  refine ⟨{ into with buffer := b }, ?_, ⟨rfl, rfl, rfl, rfl, rfl, b2⟩, ?_, ?_⟩
  · unfold decodeStage convertPixels
    rw [w1, w2, toU32_small u1, toU32_small h.dst.2, mulU32_small u2]
    simp only [Option.bind_eq_bind, Option.bind_some]
    rw [mulU32_small h.dst.1]
    simp only [Option.bind_some]
    rw [Nat.div_one, Nat.mul_div_cancel _ h.sizeOf, b1]
    rfl
  · intro y x hy hx
    apply pixelAt_eq
    · apply h.dec
      apply pixelAt_length
      have h1 : (y + 1) * (into.width * N) ≤ into.height * (into.width * N) := Nat.mul_le_mul_right _ hy
      have h2 : (x + 1) * N ≤ into.width * N := Nat.mul_le_mul_right _ hx
      rw [Nat.succ_mul] at h1 h2
      rw [w3, Nat.mul_comm _ into.height]
      omega
    · intro c hc
      exact b3 y x c hy hx hc
  · intro p hp
    by_cases hz : into.width * N = 0
    · have e0 : ∀ n : ℕ, (List.range n).foldlM (fun (dst : List A) (_ : ℕ) => some dst) into.buffer = some into.buffer := by
        intro n
        induction n with
        | zero => rfl
        | succ n ih => rw [List.range_succ, List.foldlM_append, ih]; rfl
      have hw0 : into.width = 0 := by
        rcases Nat.mul_eq_zero.1 hz with e | e
        · exact e
        · have := h.pos; omega
      rw [hw0] at b1
      simp only [List.range_zero, List.foldlM_nil, Option.pure_def] at b1
      rw [e0] at b1
      rw [← Option.some.inj b1]
    · have hpos : 0 < into.width * N := by omega
      have e := b4 (p / (into.width * N)) (p % (into.width * N)) (Nat.mod_lt _ hpos)
        (Or.inr ((Nat.le_div_iff_mul_le hpos).2 (by rw [Nat.mul_comm]; exact hp)))
      rw [Nat.div_add_mod'] at e
      exact e

/-- A whole call, given the inner resize. -/
theorem colorResize_run {W N : ℕ} {C : ColorSpace A B} {inner : Image B → Image B → Option (Except Err Unit × Image B)}
    {store into : Image A} {work : Image B} (h : ColorFits N C store into) (hc : checkResize W N false store into = .ok ())
    (hne : store.width ≠ into.width ∨ store.height ≠ into.height)
    (hi : inner (encoded N C store into) (Image.alloc N C.default into.width into.height) = some (.ok (), work))
    (hs : SameShape work (Image.alloc N C.default into.width into.height)) :
    ∃ out, colorResize W N C inner store into = some (.ok (), out) ∧ SameShape out into ∧
      (∀ y x, y < into.height → x < into.width →
        pixelAt out.buffer (into.width * N) N y x = C.dec (pixelAt work.buffer (into.width * N) N y x)) ∧
      (∀ p, into.width * N * into.height ≤ p → out.buffer[p]? = into.buffer[p]?) := by
  obtain ⟨c1, c2, c3, c4, _⟩ := checkResize_ok.1 hc
  rw [h.channels] at c4
  obtain ⟨out, o1, o2, o3, o4⟩ := decodeStage_ok h c1 (work := work) hs.1 hs.2.1 (by
    rw [hs.2.2.2.2.2]
    show (List.replicate _ _).length = _
    rw [List.length_replicate])
  refine ⟨out, ?_, o2, o3, o4⟩
  unfold colorResize
  rw [hc]
  simp only
  rw [if_neg (by tauto), (encodeStage_eq h c2 (fits_of_overflow c4) c3.1).1]
  simp only [Option.bind_eq_bind, Option.bind_some]
  rw [hi]
  simp only [Option.bind_some]
  rw [o1]
  rfl

/-- The inner call passes the checks. -/
theorem encoded_check {W N : ℕ} {C : ColorSpace A B} {store into : Image A} (h : ColorFits N C store into)
    (hc : checkResize W N false store into = .ok ()) :
    checkResize W N false (encoded N C store into) (Image.alloc N C.default into.width into.height) = .ok () := by
  obtain ⟨c1, c2, c3, c4, c5, _⟩ := checkResize_ok.1 hc
  rw [h.channels] at c4 c5
  refine checkResize_ok.2 ⟨?_, ?_, c3, c4, c5, by simp⟩
  · apply packed_validate
    rw [List.length_replicate]
    ring
  · exact packed_validate (encodeStage_eq h c2 (fits_of_overflow c4) c3.1).2

end PicScale
