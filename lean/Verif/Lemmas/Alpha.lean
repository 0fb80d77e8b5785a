import Verif.Model.Alpha
import Verif.Lemmas.Slices
import Verif.Lemmas.F32
import Verif.SpecResize
import Mathlib.Tactic.Ring
import Mathlib.Tactic.Linarith
import Mathlib.Data.Rat.Floor

namespace PicScale

open Spec

variable {S : Type}

/-- What a pixel operation does to sample `c` of a pixel with samples `p 0 … p 3`. -/
def pixelVal (col : S → S → S) (alp : S → S) (p : ℕ → S) (c : ℕ) : S :=
  if c < 3 then col (p c) (p 3) else alp (p 3)

theorem pixelOp_spec (col : S → S → S) (alp : S → S) (d : S) (l : List S) (h : l.length = 4) :
    ∃ r, pixelOp col alp l = some r ∧ r.length = 4 ∧
      ∀ c, c < 4 → r[c]? = some (pixelVal col alp (fun c => (l[c]?).getD d) c) := by
  match l, h with
  | [r, g, b, a], _ =>
    refine ⟨_, rfl, rfl, ?_⟩
    intro c hc
    have : c = 0 ∨ c = 1 ∨ c = 2 ∨ c = 3 := by omega
    rcases this with rfl | rfl | rfl | rfl <;> simp [pixelVal]

theorem alphaRow_spec (col : S → S → S) (alp : S → S) (d0 : S) {w : ℕ} {dst src : List S}
    (hd : dst.length = w * 4) (hs : src.length = w * 4) :
    ∃ r, alphaRow (pixelOp col alp) dst src = some r ∧ r.length = w * 4 ∧
      ∀ x c, x < w → c < 4 →
        r[x * 4 + c]? = some (pixelVal col alp (fun c => (src[x * 4 + c]?).getD d0) c) := by
  have hn : src.length / 4 = w := by omega
  choose! g g1 g2 g3 using fun (l : List S) (h : l.length = 4) => pixelOp_spec col alp d0 l h
  obtain ⟨r, r1, r2, r3, _⟩ := updChunks_spec 4 (fun _ s => pixelOp col alp s) (chunksExact 4 src) dst
    (fun i => g ((src.drop (i * 4)).take 4)) (by simp [hn]; omega)
    (by
      intro i x hx
      have hi : i < src.length / 4 := by
        by_contra hc
        rw [List.getElem?_eq_none (by simp; omega)] at hx; simp at hx
      rw [chunksExact_get 4 src i hi] at hx
      obtain rfl := Option.some.inj hx
      exact g1 _ (chunk_length hi))
    (by
      intro i hi
      exact g2 _ (chunk_length (by simpa using hi)))
  refine ⟨r, r1, by omega, ?_⟩
  intro x c hx hc
  have hx' : x < src.length / 4 := by omega
  rw [r3 x c (by simp; omega) hc, g3 _ (chunk_length hx') c hc]
  congr 1
  have e : ∀ c, c < 4 → ((src.drop (x * 4)).take 4)[c]? = src[x * 4 + c]? := fun c h => chunk_get h
  simp only [pixelVal]
  rw [e c hc, e 3 (by omega)]

theorem alphaRowInPlace_spec (col : S → S → S) (alp : S → S) (d0 : S) {w : ℕ} {row : List S}
    (hd : row.length = w * 4) :
    ∃ r, alphaRowInPlace (pixelOp col alp) row = some r ∧ r.length = w * 4 ∧
      ∀ x c, x < w → c < 4 →
        r[x * 4 + c]? = some (pixelVal col alp (fun c => (row[x * 4 + c]?).getD d0) c) := by
  have hn : row.length / 4 = w := by omega
  choose! g g1 g2 g3 using fun (l : List S) (h : l.length = 4) => pixelOp_spec col alp d0 l h
  obtain ⟨r, r1, r2, r3, _⟩ := updChunks_spec 4 (fun d _ => pixelOp col alp d)
    (List.replicate (row.length / 4) ()) row
    (fun i => g ((row.drop (i * 4)).take 4)) (by simp [hn]; omega)
    (by
      intro i x hx
      have hi : i < row.length / 4 := by
        by_contra hc
        rw [List.getElem?_eq_none (by simp; omega)] at hx; simp at hx
      exact g1 _ (chunk_length hi))
    (by
      intro i hi
      exact g2 _ (chunk_length (by simpa using hi)))
  refine ⟨r, r1, by omega, ?_⟩
  intro x c hx hc
  have hx' : x < row.length / 4 := by omega
  rw [r3 x c (by simp; omega) hc, g3 _ (chunk_length hx') c hc]
  congr 1
  have e : ∀ c, c < 4 → ((row.drop (x * 4)).take 4)[c]? = row[x * 4 + c]? := fun c h => chunk_get h
  simp only [pixelVal]
  rw [e c hc, e 3 (by omega)]

/-- Rows assembled as "new pixels ++ old padding": pixels, padding and everything else. -/
theorem rows_padding {stride w h : ℕ} {old r : List S} {g : ℕ → List S} (hw : w * 4 ≤ stride)
    (hs0 : 0 < stride)
    (hl : old.length = stride * h) (rl : r.length = old.length)
    (hg : ∀ y, y < h → (g y).length = w * 4)
    (hr : ∀ y j, y < h → j < stride → r[y * stride + j]? =
      (g y ++ ((old.drop (y * stride)).take stride).drop (w * 4))[j]?) :
    (∀ p, ¬ IsPixelPos stride 4 w h p → r[p]? = old[p]?) ∧
    ∀ y x c, y < h → x < w → c < 4 → r[y * stride + x * 4 + c]? = (g y)[x * 4 + c]? := by
  constructor
  · intro p hp
    by_cases hlt : p < old.length
    · have hy : p / stride < h := by rw [Nat.div_lt_iff_lt_mul hs0]; rw [hl] at hlt; rw [Nat.mul_comm]; exact hlt
      have hj : p % stride < stride := Nat.mod_lt _ hs0
      have e : p / stride * stride + p % stride = p := Nat.div_add_mod' p stride
      have := hr (p / stride) (p % stride) hy hj
      rw [e] at this
      rw [this]
      have hge : w * 4 ≤ p % stride := by
        by_contra hc
        apply hp
        refine ⟨p / stride, p % stride / 4, p % stride % 4, hy, by omega, by omega, ?_⟩
        omega
      rw [List.getElem?_append_right (by rw [hg _ hy]; exact hge), hg _ hy, List.getElem?_drop,
        show w * 4 + (p % stride - w * 4) = p % stride by omega, chunk_get hj, e]
    · rw [List.getElem?_eq_none (by omega), List.getElem?_eq_none (by omega)]
  · intro y x c hy hx hc
    rw [Nat.add_assoc, hr y (x * 4 + c) hy (by omega), List.getElem?_append_left (by rw [hg y hy]; omega)]

theorem validate_facts {N : ℕ} {img : Image S} (h : img.validate N = .ok ()) :
    img.buffer.length = img.strideOf N * img.height ∧ img.width * N ≤ img.strideOf N := by
  unfold Image.validate at h
  simp only at h
  split_ifs at h with h1 h2
  refine ⟨by simpa using h1, ?_⟩
  unfold Image.strideOf
  split_ifs with h3 <;> omega

theorem chunk_len {stride h y : ℕ} {b : List S} (hb : b.length = stride * h) (hy : y < h) :
    ((b.drop (y * stride)).take stride).length = stride := by
  have : (y + 1) * stride ≤ h * stride := Nat.mul_le_mul_right _ hy
  rw [Nat.add_mul, Nat.mul_comm h] at this
  simp; omega

/-- A row function acts pixel by pixel. -/
def RowOK (row : List S → List S → Option (List S)) (col : S → S → S) (alp : S → S) (d0 : S) : Prop :=
  ∀ (w : ℕ) (dst src : List S), dst.length = w * 4 → src.length = w * 4 →
    ∃ r, row dst src = some r ∧ r.length = w * 4 ∧
      ∀ x c, x < w → c < 4 →
        r[x * 4 + c]? = some (pixelVal col alp (fun c => (src[x * 4 + c]?).getD d0) c)

/-- An in-place row function acts pixel by pixel. -/
def RowInPlaceOK (row : List S → Option (List S)) (col : S → S → S) (alp : S → S) (d0 : S) : Prop :=
  ∀ (w : ℕ) (l : List S), l.length = w * 4 →
    ∃ r, row l = some r ∧ r.length = w * 4 ∧
      ∀ x c, x < w → c < 4 →
        r[x * 4 + c]? = some (pixelVal col alp (fun c => (l[x * 4 + c]?).getD d0) c)

/-- An in-place row function acts pixel by pixel, perhaps depending on the column. -/
def RowInPlaceX (row : List S → Option (List S)) (col : ℕ → ℕ → S → S → S) (alp : S → S) (d0 : S) : Prop :=
  ∀ (w : ℕ) (l : List S), l.length = w * 4 →
    ∃ r, row l = some r ∧ r.length = w * 4 ∧
      ∀ x c, x < w → c < 4 →
        r[x * 4 + c]? = some (pixelVal (col w x) alp (fun c => (l[x * 4 + c]?).getD d0) c)

/-- A row function acts pixel by pixel, perhaps depending on the column. -/
def RowXA (row : List S → List S → Option (List S)) (col : ℕ → ℕ → S → S → S) (alp : ℕ → ℕ → S → S) (d0 : S) : Prop :=
  ∀ (w : ℕ) (dst src : List S), dst.length = w * 4 → src.length = w * 4 →
    ∃ r, row dst src = some r ∧ r.length = w * 4 ∧
      ∀ x c, x < w → c < 4 →
        r[x * 4 + c]? = some (pixelVal (col w x) (alp w x) (fun c => (src[x * 4 + c]?).getD d0) c)

/-- An in-place row function acts pixel by pixel, colour and alpha perhaps depending on the column. -/
def RowInPlaceXA (row : List S → Option (List S)) (col : ℕ → ℕ → S → S → S) (alp : ℕ → ℕ → S → S) (d0 : S) : Prop :=
  ∀ (w : ℕ) (l : List S), l.length = w * 4 →
    ∃ r, row l = some r ∧ r.length = w * 4 ∧
      ∀ x c, x < w → c < 4 →
        r[x * 4 + c]? = some (pixelVal (col w x) (alp w x) (fun c => (l[x * 4 + c]?).getD d0) c)

theorem premultiplyImageWith_spec_x {row : List S → List S → Option (List S)} {col : ℕ → ℕ → S → S → S}
    {alp : ℕ → ℕ → S → S} {d0 : S} (hR : RowXA row col alp d0) {src dst : Image S}
    (hs : src.validate 4 = .ok ()) (hd : dst.validate 4 = .ok ()) (hw : src.width = dst.width)
    (hh : src.height = dst.height) (hp : 0 < dst.width) :
    ∃ out, premultiplyImageWith row src dst = some out ∧ SameShape out dst ∧
      PaddingKept 4 dst out ∧
      ∀ y x c, y < dst.height → x < dst.width → c < 4 →
        sample out.buffer (dst.strideOf 4) 4 y x c =
          some (pixelVal (col dst.width x) (alp dst.width x) (fun c => pxD d0 src.buffer (src.strideOf 4) 4 y x c) c) := by
  obtain ⟨sl, sw⟩ := validate_facts hs
  obtain ⟨dl, dw⟩ := validate_facts hd
  have hs0 : 0 < src.strideOf 4 := by omega
  have hd0 : 0 < dst.strideOf 4 := by omega
  have hrows : src.buffer.length / src.strideOf 4 = dst.height := by
    rw [sl, Nat.mul_div_cancel_left _ hs0, hh]
  set dst4 := dst.strideOf 4 with hdst4
  set src4 := src.strideOf 4 with hsrc4
  -- the row results
  have hrow : ∀ y, y < dst.height → ∃ r, row
      (((dst.buffer.drop (y * dst4)).take dst4).take (src.width * 4))
      (((src.buffer.drop (y * src4)).take src4).take (src.width * 4)) = some r ∧
      r.length = src.width * 4 ∧ ∀ x c, x < src.width → c < 4 → r[x * 4 + c]? = some (pixelVal (col src.width x) (alp src.width x)
        (fun c => ((((src.buffer.drop (y * src4)).take src4).take (src.width * 4))[x * 4 + c]?).getD d0) c) := by
    intro y hy
    apply hR
    · rw [List.length_take, chunk_len dl hy]; omega
    · rw [List.length_take, chunk_len sl (by omega)]; omega
  choose! g g1 g2 g3 using hrow
  obtain ⟨r, r1, r2, r3, r4⟩ := updChunks_spec dst4 (fun drow srow => do
      let d ← slice? drow 0 (src.width * 4)
      let s ← slice? srow 0 (src.width * 4)
      let r ← row d s
      some (r ++ drow.drop (src.width * 4))) (chunksExact src4 src.buffer) dst.buffer
      (fun y => g y ++ ((dst.buffer.drop (y * dst4)).take dst4).drop (src.width * 4))
      (by rw [chunksExact_length, hrows, dl, Nat.mul_comm])
      (by
        intro y s hy'
        have hy : y < dst.height := by
          by_contra hc
          rw [List.getElem?_eq_none (by rw [chunksExact_length, hrows]; omega)] at hy'; simp at hy'
        rw [chunksExact_get src4 _ y (by omega)] at hy'
        obtain rfl := Option.some.inj hy'
        rw [slice?_eq_some (by omega) (by rw [chunk_len dl hy]; omega),
          slice?_eq_some (by omega) (by rw [chunk_len sl (by omega)]; omega)]
        simp only [Option.bind_eq_bind, Option.bind_some, List.drop_zero, Nat.sub_zero]
        rw [g1 y hy]
        rfl)
      (by
        intro y hy
        have hy : y < dst.height := by rw [chunksExact_length, hrows] at hy; exact hy
        rw [List.length_append, g2 y hy, List.length_drop, chunk_len dl hy]; omega)
  rw [chunksExact_length, hrows] at r3 r4
  obtain ⟨q1, q2⟩ := rows_padding (w := src.width) (h := dst.height) (g := g) (stride := dst4)
    (by omega) hd0 dl r2 g2 (fun y j hy hj => r3 y j hy hj)
  refine ⟨{ dst with buffer := r }, ?_, ⟨rfl, rfl, rfl, rfl, rfl, r2⟩, ?_, ?_⟩
  · unfold premultiplyImageWith alphaRowsWith
    rw [r1]; rfl
  · intro p hp'
    rw [← hw] at hp'
    exact q1 p hp'
  · intro y x c hy hx hc
    simp only [sample]
    rw [q2 y x c hy (by omega) hc, g3 y hy x c (by omega) hc]
    congr 1
    rw [← hw]
    have e : ∀ c, c < 4 → (((src.buffer.drop (y * src4)).take src4).take (src.width * 4))[x * 4 + c]? =
        src.buffer[y * src4 + x * 4 + c]? := by
      intro c hc
      rw [List.getElem?_take, if_pos (by omega), chunk_get (by omega), Nat.add_assoc]
    simp only [pixelVal, pxD, sample]
    rw [e c hc, e 3 (by omega)]

theorem premultiplyImageWith_spec {row : List S → List S → Option (List S)} {col : S → S → S} {alp : S → S} {d0 : S}
    (hR : RowOK row col alp d0) {src dst : Image S}
    (hs : src.validate 4 = .ok ()) (hd : dst.validate 4 = .ok ()) (hw : src.width = dst.width)
    (hh : src.height = dst.height) (hp : 0 < dst.width) :
    ∃ out, premultiplyImageWith row src dst = some out ∧ SameShape out dst ∧
      PaddingKept 4 dst out ∧
      ∀ y x c, y < dst.height → x < dst.width → c < 4 →
        sample out.buffer (dst.strideOf 4) 4 y x c =
          some (pixelVal col alp (fun c => pxD d0 src.buffer (src.strideOf 4) 4 y x c) c) :=
  premultiplyImageWith_spec_x (col := fun _ _ => col) (alp := fun _ _ => alp) hR hs hd hw hh hp

theorem premultiplyImage_spec (col : S → S → S) (alp : S → S) (d0 : S) {src dst : Image S}
    (hs : src.validate 4 = .ok ()) (hd : dst.validate 4 = .ok ()) (hw : src.width = dst.width)
    (hh : src.height = dst.height) (hp : 0 < dst.width) :
    ∃ out, premultiplyImage (pixelOp col alp) src dst = some out ∧ SameShape out dst ∧
      PaddingKept 4 dst out ∧
      ∀ y x c, y < dst.height → x < dst.width → c < 4 →
        sample out.buffer (dst.strideOf 4) 4 y x c =
          some (pixelVal col alp (fun c => pxD d0 src.buffer (src.strideOf 4) 4 y x c) c) :=
  premultiplyImageWith_spec (fun _ _ _ h1 h2 => alphaRow_spec col alp d0 h1 h2) hs hd hw hh hp

/-- The same for row functions that treat columns differently: `col w x` for column `x` of `w`. -/
theorem unpremultiplyImageWith_spec_xa {row : List S → Option (List S)} {col : ℕ → ℕ → S → S → S} {alp : ℕ → ℕ → S → S} {d0 : S}
    (hR : RowInPlaceXA row col alp d0) {img : Image S}
    (hd : img.validate 4 = .ok ()) (hp : 0 < img.width) :
    ∃ out, unpremultiplyImageWith row img = some out ∧ SameShape out img ∧
      PaddingKept 4 img out ∧
      ∀ y x c, y < img.height → x < img.width → c < 4 →
        sample out.buffer (img.strideOf 4) 4 y x c =
          some (pixelVal (col img.width x) (alp img.width x) (fun c => pxD d0 img.buffer (img.strideOf 4) 4 y x c) c) := by
  obtain ⟨dl, dw⟩ := validate_facts hd
  have hd0 : 0 < img.strideOf 4 := by omega
  have hrows : img.buffer.length / img.strideOf 4 = img.height := by
    rw [dl, Nat.mul_div_cancel_left _ hd0]
  set s4 := img.strideOf 4 with hs4
  have hrow : ∀ y, y < img.height → ∃ r, row
      (((img.buffer.drop (y * s4)).take s4).take (img.width * 4)) = some r ∧
      r.length = img.width * 4 ∧ ∀ x c, x < img.width → c < 4 → r[x * 4 + c]? = some (pixelVal (col img.width x) (alp img.width x)
        (fun c => ((((img.buffer.drop (y * s4)).take s4).take (img.width * 4))[x * 4 + c]?).getD d0) c) := by
    intro y hy
    apply hR
    rw [List.length_take, chunk_len dl hy]; omega
  choose! g g1 g2 g3 using hrow
  obtain ⟨r, r1, r2, r3, r4⟩ := updChunks_spec s4 (fun r _ => do
      let d ← slice? r 0 (img.width * 4)
      let o ← row d
      some (o ++ r.drop (img.width * 4))) (List.replicate (img.buffer.length / s4) ()) img.buffer
      (fun y => g y ++ ((img.buffer.drop (y * s4)).take s4).drop (img.width * 4))
      (by rw [List.length_replicate, hrows, dl, Nat.mul_comm])
      (by
        intro y s hy'
        have hy : y < img.height := by
          by_contra hc
          rw [List.getElem?_eq_none (by rw [List.length_replicate, hrows]; omega)] at hy'; simp at hy'
        rw [slice?_eq_some (by omega) (by rw [chunk_len dl hy]; omega)]
        simp only [Option.bind_eq_bind, Option.bind_some, List.drop_zero, Nat.sub_zero]
        rw [g1 y hy]
        rfl)
      (by
        intro y hy
        have hy : y < img.height := by rw [List.length_replicate, hrows] at hy; exact hy
        rw [List.length_append, g2 y hy, List.length_drop, chunk_len dl hy]; omega)
  rw [List.length_replicate, hrows] at r3 r4
  obtain ⟨q1, q2⟩ := rows_padding (w := img.width) (h := img.height) (g := g) (stride := s4)
    (by omega) hd0 dl r2 g2 (fun y j hy hj => r3 y j hy hj)
  refine ⟨{ img with buffer := r }, ?_, ⟨rfl, rfl, rfl, rfl, rfl, r2⟩, ?_, ?_⟩
  · unfold unpremultiplyImageWith alphaRowsInPlaceWith
    rw [r1]; rfl
  · intro p hp'
    exact q1 p hp'
  · intro y x c hy hx hc
    simp only [sample]
    rw [q2 y x c hy hx hc, g3 y hy x c hx hc]
    congr 1
    have e : ∀ c, c < 4 → (((img.buffer.drop (y * s4)).take s4).take (img.width * 4))[x * 4 + c]? =
        img.buffer[y * s4 + x * 4 + c]? := by
      intro c hc
      rw [List.getElem?_take, if_pos (by omega), chunk_get (by omega), Nat.add_assoc]
    simp only [pixelVal, pxD, sample]
    rw [e c hc, e 3 (by omega)]

theorem unpremultiplyImageWith_spec_x {row : List S → Option (List S)} {col : ℕ → ℕ → S → S → S} {alp : S → S} {d0 : S}
    (hR : RowInPlaceX row col alp d0) {img : Image S}
    (hd : img.validate 4 = .ok ()) (hp : 0 < img.width) :
    ∃ out, unpremultiplyImageWith row img = some out ∧ SameShape out img ∧
      PaddingKept 4 img out ∧
      ∀ y x c, y < img.height → x < img.width → c < 4 →
        sample out.buffer (img.strideOf 4) 4 y x c =
          some (pixelVal (col img.width x) alp (fun c => pxD d0 img.buffer (img.strideOf 4) 4 y x c) c) :=
  unpremultiplyImageWith_spec_xa (alp := fun _ _ => alp) hR hd hp

theorem unpremultiplyImageWith_spec {row : List S → Option (List S)} {col : S → S → S} {alp : S → S} {d0 : S}
    (hR : RowInPlaceOK row col alp d0) {img : Image S}
    (hd : img.validate 4 = .ok ()) (hp : 0 < img.width) :
    ∃ out, unpremultiplyImageWith row img = some out ∧ SameShape out img ∧
      PaddingKept 4 img out ∧
      ∀ y x c, y < img.height → x < img.width → c < 4 →
        sample out.buffer (img.strideOf 4) 4 y x c =
          some (pixelVal col alp (fun c => pxD d0 img.buffer (img.strideOf 4) 4 y x c) c) :=
  unpremultiplyImageWith_spec_x (col := fun _ _ => col) hR hd hp

theorem unpremultiplyImage_spec (col : S → S → S) (alp : S → S) (d0 : S) {img : Image S}
    (hd : img.validate 4 = .ok ()) (hp : 0 < img.width) :
    ∃ out, unpremultiplyImage (pixelOp col alp) img = some out ∧ SameShape out img ∧
      PaddingKept 4 img out ∧
      ∀ y x c, y < img.height → x < img.width → c < 4 →
        sample out.buffer (img.strideOf 4) 4 y x c =
          some (pixelVal col alp (fun c => pxD d0 img.buffer (img.strideOf 4) 4 y x c) c) :=
  unpremultiplyImageWith_spec (fun _ _ h1 => alphaRowInPlace_spec col alp d0 h1) hd hp

/-! ### the table -/

theorem unpremul_inner (a : ℕ) (t : ℕ → ℕ) (m : ℕ) (i : ℕ) :
    ((List.range m).foldl (fun t pixel =>
      fun i => if i = a * 255 + pixel then unpremulEntry a pixel else t i) t) i =
      if a * 255 ≤ i ∧ i < a * 255 + m then unpremulEntry a (i - a * 255) else t i := by
  induction m with
  | zero => rw [if_neg (by omega)]; rfl
  | succ m ih =>
    rw [List.range_succ, List.foldl_append]
    simp only [List.foldl_cons, List.foldl_nil]
    by_cases h : i = a * 255 + m
    · rw [if_pos h, if_pos (by omega)]; congr 1; omega
    · rw [if_neg h, ih]
      by_cases h2 : a * 255 ≤ i ∧ i < a * 255 + m
      · rw [if_pos h2, if_pos (by omega)]
      · rw [if_neg h2, if_neg (by omega)]

set_option maxRecDepth 8000 in
theorem unpremul_outer (n : ℕ) (i : ℕ) (hn : 1 ≤ n) :
    ((List.range n).foldl (fun t alpha =>
      (List.range 256).foldl (fun t pixel =>
        fun i => if i = alpha * 255 + pixel then unpremulEntry alpha pixel else t i) t) (fun _ => 0)) i =
      if i ≤ n * 255 then unpremulEntry (min (i / 255) (n - 1)) (i - 255 * min (i / 255) (n - 1)) else 0 := by
  induction n with
  | zero => omega
  | succ n ih =>
    rw [List.range_succ (n := n), List.foldl_append]
    simp only [List.foldl_cons, List.foldl_nil]
    rw [unpremul_inner]
    by_cases h : n * 255 ≤ i ∧ i < n * 255 + 256
    · rw [if_pos h, if_pos (by omega)]
      have : min (i / 255) (n + 1 - 1) = n := by omega
      rw [this, Nat.mul_comm]
    · rw [if_neg h]
      by_cases hn0 : n = 0
      · subst hn0
        simp only [List.range_zero, List.foldl_nil]
        rw [if_neg (by omega)]
      rw [ih (by omega)]
      clear ih
      by_cases h2 : i ≤ n * 255
      · have h3 : i ≤ (n + 1) * 255 :=
          Nat.le_trans h2 (Nat.mul_le_mul_right _ (Nat.le_succ n))
        rw [if_pos h2, if_pos h3]
        have : min (i / 255) (n + 1 - 1) = min (i / 255) (n - 1) := by omega
        rw [this]
      · have h3 : ¬ i ≤ (n + 1) * 255 := by omega
        rw [if_neg h2, if_neg h3]

theorem unpremulTable_eq (i : ℕ) (h : i ≤ 65280) :
    unpremulTable i = unpremulEntry (min (i / 255) 255) (i - 255 * min (i / 255) 255) := by
  unfold unpremulTable
  rw [unpremul_outer 256 i (by omega), if_pos (by omega)]

theorem unpremulTable_entry {a c : ℕ} (ha : a ≤ 255) (hc : c ≤ 255) (h : c < 255 ∨ a = 255) :
    unpremulTable (a * 255 + c) = unpremulEntry a c := by
  rw [unpremulTable_eq _ (by omega)]
  have : min ((a * 255 + c) / 255) 255 = a := by omega
  rw [this]
  congr 1; omega

/-! ### alpha check -/

theorem xor_eq_zero {a b : ℕ} : a ^^^ b = 0 ↔ a = b := by
  constructor
  · intro h
    have : (a ^^^ b) ^^^ b = 0 ^^^ b := by rw [h]
    rwa [Nat.xor_assoc, Nat.xor_self, Nat.xor_zero, Nat.zero_xor] at this
  · rintro rfl; exact Nat.xor_self _

theorem alphaRowSum_zero (J first : ℕ) (hJ : 0 < J) : ∀ (l : List ℕ) (s : ℕ), s < J →
    s + (l.map (· ^^^ first)).sum < J → alphaRowSum J first s l = s + (l.map (· ^^^ first)).sum
  | [], s, _, _ => by simp [alphaRowSum]
  | a :: l, s, hs, h => by
    simp only [List.map_cons, List.sum_cons] at h ⊢
    have e : (s + (a ^^^ first)) % J = s + (a ^^^ first) := Nat.mod_eq_of_lt (by omega)
    have := alphaRowSum_zero J first hJ l (s + (a ^^^ first)) (by omega) (by omega)
    unfold alphaRowSum at this ⊢
    rw [List.foldl_cons, e, this]; omega

theorem sum_xor_zero (first : ℕ) (l : List ℕ) : (l.map (· ^^^ first)).sum = 0 ↔ ∀ a ∈ l, a = first := by
  induction l with
  | nil => simp
  | cons a l ih => simp [xor_eq_zero, ih]

theorem sum_xor_le (first B : ℕ) (l : List ℕ) (h : ∀ a ∈ l, a ^^^ first ≤ B) :
    (l.map (· ^^^ first)).sum ≤ l.length * B := by
  induction l with
  | nil => simp
  | cons a l ih =>
    have h1 := h a (by simp)
    have h2 := ih (fun b hb => h b (by simp [hb]))
    simp only [List.map_cons, List.sum_cons, List.length_cons, Nat.add_mul]; omega

theorem alphaRowsDiffer_iff (J first w B : ℕ) (hJ : w * B < J) : ∀ (rows : List (List ℕ)),
    (∀ row ∈ rows, ∀ v ∈ row, v ^^^ first ≤ B) → (∀ row ∈ rows, w * 4 ≤ row.length) →
    (alphaRowsDiffer J first w 0 rows = true ↔
      ∃ row ∈ rows, ∃ x, x < w ∧ row.getD (x * 4 + 3) 0 ≠ first)
  | [], _, _ => by simp [alphaRowsDiffer]
  | row :: rows, hB, hl => by
    have hlen : (row.take (w * 4)).length / 4 = w := by
      have := hl row (by simp)
      rw [List.length_take]; omega
    set al := (chunksExact 4 (row.take (w * 4))).map fun p => p.getD 3 0 with hal
    have all : al.length = w := by rw [hal, List.length_map, chunksExact_length, hlen]
    have hget : ∀ x, x < w → al[x]? = some (row.getD (x * 4 + 3) 0) := by
      intro x hx
      rw [hal, List.getElem?_map, chunksExact_get 4 _ x (by omega)]
      simp only [Option.map_some]
      congr 1
      rw [List.getD_eq_getElem?_getD, chunk_get (by omega), List.getElem?_take, if_pos (by omega),
        List.getD_eq_getElem?_getD]
    have hmem : ∀ a ∈ al, ∃ x, x < w ∧ a = row.getD (x * 4 + 3) 0 := by
      intro a ha
      obtain ⟨x, hx, rfl⟩ := List.getElem_of_mem ha
      refine ⟨x, by omega, ?_⟩
      have := hget x (by omega)
      rw [List.getElem?_eq_getElem hx] at this
      exact Option.some.inj this
    have hb : ∀ a ∈ al, a ^^^ first ≤ B := by
      intro a ha
      obtain ⟨x, hx, rfl⟩ := hmem a ha
      have := hl row (by simp)
      apply hB row (by simp)
      rw [List.getD_eq_getElem?_getD, List.getElem?_eq_getElem (by omega)]
      simp
    have hs : (al.map (· ^^^ first)).sum < J := by
      have := sum_xor_le first B al hb
      rw [all] at this; omega
    have h1 : alphaRowSum J first 0 al = (al.map (· ^^^ first)).sum := by
      have := alphaRowSum_zero J first (by omega) al 0 (by omega) (by omega)
      omega
    have ih := alphaRowsDiffer_iff J first w B hJ rows (fun r hr => hB r (by simp [hr]))
      (fun r hr => hl r (by simp [hr]))
    unfold alphaRowsDiffer
    simp only [← hal, h1]
    by_cases hz : (al.map (· ^^^ first)).sum = 0
    · simp only [hz, ne_eq, not_true_eq_false, if_false]
      rw [ih]
      have hall := (sum_xor_zero first al).1 hz
      constructor
      · rintro ⟨r, hr, h⟩; exact ⟨r, by simp [hr], h⟩
      · rintro ⟨r, hr, x, hx, h⟩
        rcases List.mem_cons.1 hr with rfl | hr
        · exact absurd (hall _ (List.mem_of_getElem? (hget x hx))) h
        · exact ⟨r, hr, x, hx, h⟩
    · simp only [ne_eq, hz, not_false_eq_true, if_true, true_iff]
      rw [sum_xor_zero] at hz
      push Not at hz
      obtain ⟨a, ha, hne⟩ := hz
      obtain ⟨x, hx, rfl⟩ := hmem a ha
      exact ⟨row, by simp, x, hx, hne⟩

/-- The division is never by zero. -/
theorem unpremultiplyPixelF_eq (ρ : ℚ → ℚ) :
    unpremultiplyPixelF ρ = pixelOp (fun c a => if a ≠ 0 then ρ (c * ρ (1 / a)) else 0) (fun a => a) := by
  have e : (fun c a : ℚ => if a ≠ 0 then ρ (c * ρ (fdiv 1 a)) else 0) = fun c a => if a ≠ 0 then ρ (c * ρ (1 / a)) else 0 := by
    funext c a
    split_ifs with h
    · rw [fdiv_eq h]
    · rfl
  unfold unpremultiplyPixelF
  rw [e]

/-! ### binary32 quotients -/

/-- The float quotient used by the 16-bit code is within 1/64. -/
theorem float_quot {v m : ℕ} (hm : 0 < m) (hm' : m ≤ 2 ^ 16) (hv : v ≤ m * 2 ^ 16) :
    |F32.mul (F32.ofNat v) (F32.div 1 (F32.ofNat m)) - (v : ℚ) / m| ≤ 1 / 64 := by
  rw [F32.ofNat_exact (n := m) (by omega)]
  rw [F32.div_eq (show (m : ℚ) ≠ 0 by exact_mod_cast hm.ne')]
  unfold F32.mul F32.ofNat
  by_cases h0 : v = 0
  · subst h0; simp [F32.rnd]
  have hmq : (0 : ℚ) < m := by exact_mod_cast hm
  have hm1 : (m : ℚ) ≤ 2 ^ 16 := by exact_mod_cast hm'
  have hv1 : (1 : ℚ) ≤ v := by exact_mod_cast Nat.one_le_iff_ne_zero.2 h0
  have hvm : (v : ℚ) / m ≤ 2 ^ 16 := by
    rw [div_le_iff₀ hmq]; exact_mod_cast (by rw [Nat.mul_comm]; exact hv)
  have hlow : (1 : ℚ) / 2 ^ 16 ≤ 1 / m := by gcongr
  have e1 := F32.rnd_err_rel (q := (v : ℚ)) (by rw [abs_of_pos (by linarith)]; refine le_trans ?_ hv1; norm_num)
  have e2 := F32.rnd_err_rel (q := (1 : ℚ) / m) (by
    rw [abs_of_pos (by positivity)]; refine le_trans ?_ hlow; norm_num)
  rw [abs_of_pos (show (0 : ℚ) < v by linarith)] at e1
  rw [abs_of_pos (show (0 : ℚ) < 1 / m by positivity)] at e2
  set A := F32.rnd (v : ℚ) with hA
  set B := F32.rnd ((1 : ℚ) / m) with hB
  set t : ℚ := 1 / m with ht
  have htpos : 0 < t := by positivity
  rw [abs_le] at e1 e2
  obtain ⟨a1, a2⟩ := e1
  obtain ⟨b1, b2⟩ := e2
  have hApos : 0 < A := by
    have : (0 : ℚ) < v - v / 2 ^ 24 := by have : (v : ℚ) / 2 ^ 24 ≤ v / 2 := by gcongr; norm_num
                                          linarith
    linarith
  have hBpos : 0 < B := by
    have : (t : ℚ) / 2 ^ 24 ≤ t / 2 := by gcongr; norm_num
    linarith
  have hx : (v : ℚ) / m = v * t := by rw [ht]; ring
  rw [hx] at hvm ⊢
  have hup : A * B ≤ v * t * (1 + 3 / 2 ^ 24) := by
    calc A * B ≤ (v * (1 + 1 / 2 ^ 24)) * (t * (1 + 1 / 2 ^ 24)) := by
          apply mul_le_mul _ _ hBpos.le (by positivity)
          · linarith
          · linarith
      _ = v * t * ((1 + 1 / 2 ^ 24) * (1 + 1 / 2 ^ 24)) := by ring
      _ ≤ _ := by gcongr; norm_num
  have hdn : v * t * (1 - 3 / 2 ^ 24) ≤ A * B := by
    calc v * t * (1 - 3 / 2 ^ 24) ≤ v * t * ((1 - 1 / 2 ^ 24) * (1 - 1 / 2 ^ 24)) := by gcongr; norm_num
      _ = (v * (1 - 1 / 2 ^ 24)) * (t * (1 - 1 / 2 ^ 24)) := by ring
      _ ≤ A * B := by
          apply mul_le_mul _ _ (by apply mul_nonneg htpos.le; norm_num) hApos.le
          · linarith
          · linarith
  have hvt : 0 < (v : ℚ) * t := by positivity
  have e3 := F32.rnd_err_le (A * B)
  rw [abs_of_pos (mul_pos hApos hBpos), abs_le] at e3
  obtain ⟨c1, c2⟩ := e3
  have h4 : A * B / 2 ^ 24 ≤ v * t * (2 / 2 ^ 24) := by
    calc A * B / 2 ^ 24 ≤ v * t * (1 + 3 / 2 ^ 24) / 2 ^ 24 := by gcongr
      _ ≤ v * t * 2 / 2 ^ 24 := by gcongr; norm_num
      _ = _ := by ring
  have h5 : v * t * (5 / 2 ^ 24) ≤ 2 ^ 16 * (5 / 2 ^ 24) := by gcongr
  have h6 : (2 : ℚ) ^ 16 * (5 / 2 ^ 24) + 1 / 2 ^ 150 ≤ 1 / 32 := by norm_num
  have h7 : (1 : ℚ) / 2 ^ 150 ≤ 1 / 2 ^ 60 := by norm_num
  have h8 : v * t * (5 / 2 ^ 24) + 1 / 2 ^ 150 ≤ 1 / 32 := by linarith
  rw [abs_le]
  constructor <;> nlinarith

end PicScale
