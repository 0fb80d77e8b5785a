import Verif.Lemmas.Fixed
import Verif.Model.Dispatch

namespace PicScale

variable {S W : Type}

/-- A pixel formula for the horizontal pass: `val f x c` is the sample written at column `x`, channel
`c`, when `f i` is the source element `i` of the row; `pad` is what happens to the elements behind the last
pixel of the row. -/
structure HOKp (N ss ds out : ℕ) (d0 : S) (pad : S → S) (val : (ℕ → S) → ℕ → ℕ → S)
    (h1 : List S → List S → Option (List S)) : Prop where
  loc : ∀ f g x c, x < out → c < N → (∀ i, i < ss → f i = g i) → val f x c = val g x c
  one : ∀ s d : List S, s.length = ss → d.length = ds → ∃ r, h1 s d = some r ∧ r.length = ds ∧
    (∀ x c, x < out → c < N → r[x * N + c]? = some (val (fun i => s.getD i d0) x c)) ∧
    (∀ p, out * N ≤ p → r[p]? = d[p]?.map pad)

def H4OKp (N ss ds out : ℕ) (d0 : S) (pad : S → S) (val : (ℕ → S) → ℕ → ℕ → S)
    (h4 : List S → ℕ → List S → ℕ → Option (List S)) : Prop :=
  ∀ s d : List S, s.length = ss * 4 → d.length = ds * 4 → ∃ r, h4 s ss d ds = some r ∧
    r.length = ds * 4 ∧
    (∀ q x c, q < 4 → x < out → c < N →
      r[q * ds + x * N + c]? = some (val (fun i => s.getD (ss * q + i) d0) x c)) ∧
    (∀ q p, q < 4 → out * N ≤ p → p < ds → r[q * ds + p]? = d[q * ds + p]?.map pad)

/-- `HOKp` for handlers that keep the padding. -/
structure HOK (N ss ds out : ℕ) (d0 : S) (val : (ℕ → S) → ℕ → ℕ → S)
    (h1 : List S → List S → Option (List S)) : Prop where
  loc : ∀ f g x c, x < out → c < N → (∀ i, i < ss → f i = g i) → val f x c = val g x c
  one : ∀ s d : List S, s.length = ss → d.length = ds → ∃ r, h1 s d = some r ∧ r.length = ds ∧
    (∀ x c, x < out → c < N → r[x * N + c]? = some (val (fun i => s.getD i d0) x c)) ∧
    (∀ p, out * N ≤ p → r[p]? = d[p]?)

def H4OK (N ss ds out : ℕ) (d0 : S) (val : (ℕ → S) → ℕ → ℕ → S)
    (h4 : List S → ℕ → List S → ℕ → Option (List S)) : Prop :=
  ∀ s d : List S, s.length = ss * 4 → d.length = ds * 4 → ∃ r, h4 s ss d ds = some r ∧
    r.length = ds * 4 ∧
    (∀ q x c, q < 4 → x < out → c < N →
      r[q * ds + x * N + c]? = some (val (fun i => s.getD (ss * q + i) d0) x c)) ∧
    (∀ q p, q < 4 → out * N ≤ p → p < ds → r[q * ds + p]? = d[q * ds + p]?)

theorem HOK.toPad {N ss ds out : ℕ} {d0 : S} {val : (ℕ → S) → ℕ → ℕ → S}
    {h1 : List S → List S → Option (List S)} (h : HOK N ss ds out d0 val h1) : HOKp N ss ds out d0 id val h1 :=
  ⟨h.loc, fun s d hs hd => by simpa using h.one s d hs hd⟩

theorem H4OK.toPad {N ss ds out : ℕ} {d0 : S} {val : (ℕ → S) → ℕ → ℕ → S}
    {h4 : List S → ℕ → List S → ℕ → Option (List S)} (h : H4OK N ss ds out d0 val h4) :
    H4OKp N ss ds out d0 id val h4 := fun s d hs hd => by simpa using h s d hs hd

theorem drop_take_getD {l : List S} {off n i : ℕ} (d0 : S) (hi : i < n) :
    ((l.drop off).take n).getD i d0 = l.getD (off + i) d0 := by
  simp only [List.getD_eq_getElem?_getD]
  rw [List.getElem?_take]; simp [hi]

/-- The single-row loop over `H` rows. -/
theorem rows1_specp {N ss ds out H : ℕ} {d0 : S} {pad : S → S} {val : (ℕ → S) → ℕ → ℕ → S}
    {h1 : List S → List S → Option (List S)} (ok : HOKp N ss ds out d0 pad val h1) (hss : 0 < ss)
    (hds : out * N ≤ ds)
    {src dst : List S} (hs : src.length = H * ss) (hd : dst.length = H * ds) :
    ∃ r, updChunks ds (fun d s => h1 s d) dst (chunksExact ss src) = some r ∧ r.length = dst.length ∧
      (∀ y x c, y < H → x < out → c < N → r[y * ds + x * N + c]? =
        some (val (fun i => src.getD (y * ss + i) d0) x c)) ∧
      (∀ y p, y < H → out * N ≤ p → p < ds → r[y * ds + p]? = dst[y * ds + p]?.map pad) := by
  have hn : src.length / ss = H := by rw [hs, Nat.mul_div_cancel _ hss]
  have hcl : ∀ y, y < H → ((src.drop (y * ss)).take ss).length = ss :=
    fun y hy => chunk_length (by rw [hn]; exact hy)
  have hdl : ∀ y, y < H → ((dst.drop (y * ds)).take ds).length = ds := by
    intro y hy
    have : y * ds + ds ≤ H * ds := by
      have := Nat.mul_le_mul_right ds (show y + 1 ≤ H from hy)
      rw [Nat.add_mul] at this; omega
    simp; omega
  have hex : ∀ y, ∃ r, y < H →
      h1 ((src.drop (y * ss)).take ss) ((dst.drop (y * ds)).take ds) = some r ∧ r.length = ds ∧
      (∀ x c, x < out → c < N → r[x * N + c]? =
        some (val (fun i => ((src.drop (y * ss)).take ss).getD i d0) x c)) ∧
      (∀ p, out * N ≤ p → r[p]? = ((dst.drop (y * ds)).take ds)[p]?.map pad) := by
    intro y
    by_cases hy : y < H
    · obtain ⟨r, hr⟩ := ok.one _ _ (hcl y hy) (hdl y hy)
      exact ⟨r, fun _ => hr⟩
    · exact ⟨[], fun h => absurd h hy⟩
  choose g hg using hex
  obtain ⟨r, e1, e2, e3, e4⟩ := updChunks_spec ds (fun d s => h1 s d) (chunksExact ss src) dst g
    (by rw [chunksExact_length, hn]; omega)
    (by
      intro i x hx
      have hi : i < H := by
        have := (List.getElem?_eq_some_iff.1 hx).1
        rw [chunksExact_length, hn] at this; exact this
      rw [chunksExact_get _ _ _ (by rw [hn]; exact hi)] at hx
      obtain rfl := Option.some.inj hx
      exact (hg i hi).1)
    (by
      intro i hi
      rw [chunksExact_length, hn] at hi
      exact (hg i hi).2.1)
  rw [chunksExact_length, hn] at e3 e4
  refine ⟨r, e1, e2, ?_, ?_⟩
  · intro y x c hy hx hc
    have hlt : x * N + c < ds := by
      have := Nat.mul_le_mul_right N (show x + 1 ≤ out from hx)
      rw [Nat.add_mul] at this; omega
    rw [Nat.add_assoc, e3 y _ hy hlt, (hg y hy).2.2.1 x c hx hc]
    congr 1
    exact ok.loc _ _ x c hx hc (fun i hi => drop_take_getD d0 hi)
  · intro y p hy hp hps
    rw [e3 y p hy hps, (hg y hy).2.2.2 p hp, chunk_get hps]

/-- Rows in complete groups of four follow `val4`, the remaining rows `val`. -/
theorem horizontalDispatch_specp {N ss ds out H : ℕ} {d0 : S} {pad : S → S} {val val4 : (ℕ → S) → ℕ → ℕ → S}
    {h1 : List S → List S → Option (List S)} {h4 : List S → ℕ → List S → ℕ → Option (List S)}
    (ok : HOKp N ss ds out d0 pad val h1) (ok4 : H4OKp N ss ds out d0 pad val4 h4)
    (loc4 : ∀ f g x c, x < out → c < N → (∀ i, i < ss → f i = g i) → val4 f x c = val4 g x c)
    {src dst : Image S} (hss : src.strideOf N = ss) (hds : dst.strideOf N = ds) (hpos : 0 < ss)
    (hdp : 0 < ds) (hw : out * N ≤ ds) (hs : src.buffer.length = H * ss)
    (hd : dst.buffer.length = H * ds) :
    ∃ r, horizontalDispatch N src dst (some h4) h1 = some { dst with buffer := r } ∧
      r.length = dst.buffer.length ∧
      (∀ y x c, y < H → x < out → c < N → r[y * ds + x * N + c]? =
        some ((if y < 4 * (H / 4) then val4 else val) (fun i => src.buffer.getD (y * ss + i) d0) x c)) ∧
      (∀ y p, y < H → out * N ≤ p → p < ds → r[y * ds + p]? = dst.buffer[y * ds + p]?.map pad) := by
  have hn : src.buffer.length / (ss * 4) = H / 4 := by
    rw [hs, Nat.mul_comm H ss, Nat.mul_div_mul_left _ _ hpos]
  have hnd : dst.buffer.length / (ds * 4) = H / 4 := by
    rw [hd, Nat.mul_comm H ds, Nat.mul_div_mul_left _ _ hdp]
  set G := H / 4 with hG
  have hG4 : 4 * G ≤ H := by omega
  have hGs : G * (ss * 4) ≤ src.buffer.length := by
    rw [hs]; calc G * (ss * 4) = 4 * G * ss := by ring
      _ ≤ H * ss := Nat.mul_le_mul_right _ hG4
  have hGd : G * (ds * 4) ≤ dst.buffer.length := by
    rw [hd]; calc G * (ds * 4) = 4 * G * ds := by ring
      _ ≤ H * ds := Nat.mul_le_mul_right _ hG4
  have hcl : ∀ y, y < G → ((src.buffer.drop (y * (ss * 4))).take (ss * 4)).length = ss * 4 :=
    fun y hy => chunk_length (by rw [hn]; exact hy)
  have hdl : ∀ y, y < G → ((dst.buffer.drop (y * (ds * 4))).take (ds * 4)).length = ds * 4 :=
    fun y hy => chunk_length (by rw [hnd]; exact hy)
  have hex : ∀ y, ∃ r, y < G →
      h4 ((src.buffer.drop (y * (ss * 4))).take (ss * 4)) ss
        ((dst.buffer.drop (y * (ds * 4))).take (ds * 4)) ds = some r ∧ r.length = ds * 4 ∧
      (∀ q x c, q < 4 → x < out → c < N → r[q * ds + x * N + c]? =
        some (val4 (fun i => ((src.buffer.drop (y * (ss * 4))).take (ss * 4)).getD (ss * q + i) d0) x c)) ∧
      (∀ q p, q < 4 → out * N ≤ p → p < ds → r[q * ds + p]? =
        ((dst.buffer.drop (y * (ds * 4))).take (ds * 4))[q * ds + p]?.map pad) := by
    intro y
    by_cases hy : y < G
    · obtain ⟨r, hr⟩ := ok4 _ _ (hcl y hy) (hdl y hy)
      exact ⟨r, fun _ => hr⟩
    · exact ⟨[], fun h => absurd h hy⟩
  choose g hg using hex
  obtain ⟨d, e1, e2, e3, e4⟩ := updChunks_spec (ds * 4) (fun d s => h4 s ss d ds)
    (chunksExact (ss * 4) src.buffer) dst.buffer g
    (by rw [chunksExact_length, hn]; exact hGd)
    (by
      intro i x hx
      have hi : i < G := by
        have := (List.getElem?_eq_some_iff.1 hx).1
        rw [chunksExact_length, hn] at this; exact this
      rw [chunksExact_get _ _ _ (by rw [hn]; exact hi)] at hx
      obtain rfl := Option.some.inj hx
      exact (hg i hi).1)
    (by
      intro i hi
      rw [chunksExact_length, hn] at hi
      exact (hg i hi).2.1)
  rw [chunksExact_length, hn] at e3 e4
  have hdn : d.length / (ds * 4) = G := by rw [e2, hnd]
  -- remainder
  have hremS : (chunksRemainder (ss * 4) src.buffer).length = (H - 4 * G) * ss := by
    rw [chunksRemainder, hn, List.length_drop, hs, Nat.sub_mul]
    congr 1; ring
  have hremD : (chunksRemainder (ds * 4) d).length = (H - 4 * G) * ds := by
    rw [chunksRemainder, hdn, List.length_drop, e2, hd, Nat.sub_mul]
    congr 1; ring
  obtain ⟨r, f1, f2, f3, f4⟩ := rows1_specp ok hpos hw hremS hremD
  have htl : (d.take (G * (ds * 4))).length = G * (ds * 4) := by
    rw [List.length_take, e2]; omega
  refine ⟨d.take (G * (ds * 4)) ++ r, ?_, ?_, ?_, ?_⟩
  · unfold horizontalDispatch
    simp only [hss, hds, e1, Option.bind_eq_bind, Option.bind_some, hdn, f1]
  · rw [List.length_append, htl, f2, hremD, hd, Nat.sub_mul]
    have : G * (ds * 4) = 4 * G * ds := by ring
    have := Nat.mul_le_mul_right ds hG4
    omega
  all_goals
    have lookup : ∀ y p, y < H → p < ds → (d.take (G * (ds * 4)) ++ r)[y * ds + p]? =
        if y < 4 * G then (g (y / 4))[(y % 4) * ds + p]? else r[(y - 4 * G) * ds + p]? := by
      intro y p hy hp
      by_cases h : y < 4 * G
      · have hq : y / 4 < G := by omega
        have hy4 : y = (y / 4) * 4 + y % 4 := by omega
        have hqd : (y % 4) * ds + p < ds * 4 := by
          have : (y % 4 + 1) * ds ≤ 4 * ds := Nat.mul_le_mul_right _ (by omega)
          rw [Nat.add_mul] at this; omega
        have heq : y * ds + p = (y / 4) * (ds * 4) + ((y % 4) * ds + p) := by
          conv_lhs => rw [hy4]
          ring
        have hlt : y * ds + p < G * (ds * 4) := by
          have : (y + 1) * ds ≤ 4 * G * ds := Nat.mul_le_mul_right _ h
          have e : G * (ds * 4) = 4 * G * ds := by ring
          rw [Nat.add_mul] at this; omega
        rw [if_pos h, List.getElem?_append_left (by omega), List.getElem?_take, if_pos hlt, heq,
          e3 _ _ hq hqd]
      · have heq : y * ds + p = G * (ds * 4) + ((y - 4 * G) * ds + p) := by
          have : y = 4 * G + (y - 4 * G) := by omega
          conv_lhs => rw [this]
          ring
        rw [if_neg h, heq, List.getElem?_append_right (by omega), htl, Nat.add_sub_cancel_left]
  · intro y x c hy hx hc
    have hlt : x * N + c < ds := by
      have := Nat.mul_le_mul_right N (show x + 1 ≤ out from hx)
      rw [Nat.add_mul] at this; omega
    rw [Nat.add_assoc, lookup y _ hy hlt]
    split_ifs with h
    · have hq : y / 4 < G := by omega
      rw [← Nat.add_assoc, (hg _ hq).2.2.1 (y % 4) x c (by omega) hx hc]
      congr 1
      apply loc4 _ _ x c hx hc
      intro i hi
      have : ss * (y % 4) + i < ss * 4 := by
        have : ss * (y % 4 + 1) ≤ ss * 4 := Nat.mul_le_mul_left _ (by omega)
        rw [Nat.mul_add] at this; omega
      rw [drop_take_getD d0 this]
      congr 1
      have hy4 : y = (y / 4) * 4 + y % 4 := by omega
      conv_rhs => rw [hy4]
      ring
    · rw [← Nat.add_assoc, f3 (y - 4 * G) x c (by omega) hx hc]
      congr 1
      apply ok.loc _ _ x c hx hc
      intro i _
      rw [chunksRemainder, hn]
      simp only [List.getD_eq_getElem?_getD, List.getElem?_drop]
      congr 2
      have : y = 4 * G + (y - 4 * G) := by omega
      conv_rhs => rw [this]
      ring
  · intro y p hy hp hps
    rw [lookup y _ hy hps]
    split_ifs with h
    · have hq : y / 4 < G := by omega
      rw [(hg _ hq).2.2.2 (y % 4) p (by omega) hp hps, chunk_get]
      · congr 2
        have hy4 : y = (y / 4) * 4 + y % 4 := by omega
        conv_rhs => rw [hy4]
        ring
      · have : (y % 4 + 1) * ds ≤ 4 * ds := Nat.mul_le_mul_right _ (by omega)
        rw [Nat.add_mul] at this; omega
    · have heq : y * ds + p = G * (ds * 4) + ((y - 4 * G) * ds + p) := by
        have : y = 4 * G + (y - 4 * G) := by omega
        conv_lhs => rw [this]
        ring
      rw [f4 (y - 4 * G) p (by omega) hp hps, chunksRemainder, hdn, List.getElem?_drop, ← heq,
        e4 _ (by rw [heq]; omega)]

/-- Rows in complete groups of four follow `val4`, the remaining rows `val`. -/
theorem horizontalDispatch_spec2 {N ss ds out H : ℕ} {d0 : S} {val val4 : (ℕ → S) → ℕ → ℕ → S}
    {h1 : List S → List S → Option (List S)} {h4 : List S → ℕ → List S → ℕ → Option (List S)}
    (ok : HOK N ss ds out d0 val h1) (ok4 : H4OK N ss ds out d0 val4 h4)
    (loc4 : ∀ f g x c, x < out → c < N → (∀ i, i < ss → f i = g i) → val4 f x c = val4 g x c)
    {src dst : Image S} (hss : src.strideOf N = ss) (hds : dst.strideOf N = ds) (hpos : 0 < ss)
    (hdp : 0 < ds) (hw : out * N ≤ ds) (hs : src.buffer.length = H * ss)
    (hd : dst.buffer.length = H * ds) :
    ∃ r, horizontalDispatch N src dst (some h4) h1 = some { dst with buffer := r } ∧
      r.length = dst.buffer.length ∧
      (∀ y x c, y < H → x < out → c < N → r[y * ds + x * N + c]? =
        some ((if y < 4 * (H / 4) then val4 else val) (fun i => src.buffer.getD (y * ss + i) d0) x c)) ∧
      (∀ y p, y < H → out * N ≤ p → p < ds → r[y * ds + p]? = dst.buffer[y * ds + p]?) := by
  simpa using horizontalDispatch_specp ok.toPad ok4.toPad loc4 hss hds hpos hdp hw hs hd

theorem horizontalDispatch_spec {N ss ds out H : ℕ} {d0 : S} {val : (ℕ → S) → ℕ → ℕ → S}
    {h1 : List S → List S → Option (List S)} {h4 : List S → ℕ → List S → ℕ → Option (List S)}
    (ok : HOK N ss ds out d0 val h1) (ok4 : H4OK N ss ds out d0 val h4)
    {src dst : Image S} (hss : src.strideOf N = ss) (hds : dst.strideOf N = ds) (hpos : 0 < ss)
    (hdp : 0 < ds) (hw : out * N ≤ ds) (hs : src.buffer.length = H * ss)
    (hd : dst.buffer.length = H * ds) :
    ∃ r, horizontalDispatch N src dst (some h4) h1 = some { dst with buffer := r } ∧
      r.length = dst.buffer.length ∧
      (∀ y x c, y < H → x < out → c < N → r[y * ds + x * N + c]? =
        some (val (fun i => src.buffer.getD (y * ss + i) d0) x c)) ∧
      (∀ y p, y < H → out * N ≤ p → p < ds → r[y * ds + p]? = dst.buffer[y * ds + p]?) := by
  obtain ⟨r, e1, e2, e3, e4⟩ := horizontalDispatch_spec2 ok ok4 ok.loc hss hds hpos hdp hw hs hd
  refine ⟨r, e1, e2, fun y x c hy hx hc => ?_, e4⟩
  rw [e3 y x c hy hx hc, ite_self]

/-- A column formula for the vertical pass. -/
def VOK (ss width : ℕ) (src : List S) (bounds : List Bounds) (aligned : ℕ) (weights : List W)
    (handler : Bounds → List S → List S → ℕ → List W → Option (List S)) (out : ℕ)
    (val : ℕ → ℕ → S) : Prop :=
  ∀ y b, y < out → bounds[y]? = some b → ∀ d : List S, d.length = width →
    ∃ r, handler b src d ss (weights.drop (y * aligned)) = some r ∧ r.length = width ∧
      ∀ p, p < width → r[p]? = some (val y p)

theorem verticalDispatch_spec {N ss ds out aligned : ℕ} {bounds : List Bounds} {weights : List W}
    {handler : Bounds → List S → List S → ℕ → List W → Option (List S)} {val : ℕ → ℕ → S}
    {src dst : Image S} (hss : src.strideOf N = ss) (hds : dst.strideOf N = ds)
    (hdp : 0 < ds) (hw : dst.width * N ≤ ds) (hd : dst.buffer.length = out * ds)
    (hb : bounds.length = out) (hwl : out * aligned ≤ weights.length)
    (ok : VOK ss (dst.width * N) src.buffer bounds aligned weights handler out val) :
    ∃ r, verticalDispatch N src dst bounds aligned weights handler = some { dst with buffer := r } ∧
      r.length = dst.buffer.length ∧
      (∀ y p, y < out → p < dst.width * N → r[y * ds + p]? = some (val y p)) ∧
      (∀ y p, y < out → dst.width * N ≤ p → p < ds → r[y * ds + p]? = dst.buffer[y * ds + p]?) := by
  have hn : dst.buffer.length / ds = out := by rw [hd, Nat.mul_div_cancel _ hdp]
  have hdl : ∀ y, y < out → ((dst.buffer.drop (y * ds)).take ds).length = ds :=
    fun y hy => chunk_length (by rw [hn]; exact hy)
  have hex : ∀ y, ∃ r, y < out → ∃ r0, r = r0 ++ ((dst.buffer.drop (y * ds)).take ds).drop (dst.width * N) ∧
      handler (bounds.getD y ⟨0, 0⟩) src.buffer
        (((dst.buffer.drop (y * ds)).take ds).take (dst.width * N)) ss (weights.drop (y * aligned)) = some r0 ∧
      r0.length = dst.width * N ∧ ∀ p, p < dst.width * N → r0[p]? = some (val y p) := by
    intro y
    by_cases hy : y < out
    · obtain ⟨r, hr⟩ := ok y (bounds.getD y ⟨0, 0⟩) hy (getElem?_eq_some_getD _ (by omega))
        (((dst.buffer.drop (y * ds)).take ds).take (dst.width * N))
        (by rw [List.length_take, hdl y hy]; omega)
      exact ⟨_, fun _ => ⟨r, rfl, hr⟩⟩
    · exact ⟨[], fun h => absurd h hy⟩
  choose g hg using hex
  have hgl : ∀ i, i < out → (g i).length = ds := by
    intro i hi
    obtain ⟨r0, h1, _, h3, _⟩ := hg i hi
    rw [h1, List.length_append, h3, List.length_drop, hdl i hi]; omega
  obtain ⟨r, e1, e2, e3, _⟩ := updChunks_spec ds (fun row y => do
      let b ← bounds[y]?
      let w ← slice? weights (y * aligned) weights.length
      let part ← slice? row 0 (dst.width * N)
      let r ← handler b src.buffer part ss w
      some (r ++ row.drop (dst.width * N))) (List.range (dst.buffer.length / ds)) dst.buffer g
    (by rw [List.length_range, hn]; omega)
    (by
      intro i x hx
      have hi : i < out := by
        have := (List.getElem?_eq_some_iff.1 hx).1
        rw [List.length_range, hn] at this; exact this
      rw [List.getElem?_range (by omega)] at hx
      obtain rfl := Option.some.inj hx
      obtain ⟨r0, h1, h2, h3, h4⟩ := hg i hi
      have hal : i * aligned ≤ weights.length :=
        le_trans (Nat.mul_le_mul_right _ (by omega)) hwl
      rw [getElem?_eq_some_getD ⟨0, 0⟩ (show i < bounds.length by omega),
        slice?_eq_some hal (le_refl _), slice?_eq_some (Nat.zero_le _) (by rw [hdl i hi]; exact hw)]
      have ht : (weights.drop (i * aligned)).take (weights.length - i * aligned) =
          weights.drop (i * aligned) := by
        rw [List.take_of_length_le]; simp
      simp only [Option.bind_eq_bind, Option.bind_some, ht, List.drop_zero, Nat.sub_zero, h2, h1])
    (by
      intro i hi
      rw [List.length_range, hn] at hi
      exact hgl i hi)
  rw [List.length_range, hn] at e3
  refine ⟨r, ?_, e2, ?_, ?_⟩
  · unfold verticalDispatch
    simp only [hss, hds, Option.bind_eq_bind] at e1 ⊢
    rw [e1]
    rfl
  · intro y p hy hp
    obtain ⟨r0, h1, h2, h3, h4⟩ := hg y hy
    rw [e3 y p hy (by omega), h1, List.getElem?_append_left (by omega), h4 p hp]
  · intro y p hy hp hps
    obtain ⟨r0, h1, h2, h3, h4⟩ := hg y hy
    rw [e3 y p hy (by omega), h1, List.getElem?_append_right (by omega), h3, List.getElem?_drop,
      show dst.width * N + (p - dst.width * N) = p by omega, chunk_get hps]

end PicScale
