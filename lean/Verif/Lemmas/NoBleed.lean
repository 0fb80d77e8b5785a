import Verif.SpecNoBleed
import Verif.Lemmas.AlphaCompose
import Verif.Lemmas.X86F32Value

/-!
Resizes with alpha of pictures that differ in invisible pixels only.
-/

namespace PicScale

open Spec

variable {S : Type} {inv : S → Prop} {a b : Image S}

theorem Spec.DifferInvisibly.strideOf (h : DifferInvisibly inv a b) (N : ℕ) : b.strideOf N = a.strideOf N := by
  obtain ⟨_, hw, _, hs, _⟩ := h.header
  unfold Image.strideOf; rw [hw, hs]

theorem Spec.DifferInvisibly.check (h : DifferInvisibly inv a b) {W N : ℕ} {c : Bool} {into : Image S} :
    checkResize W N c b into = checkResize W N c a into := by
  have hst := h.strideOf N
  obtain ⟨hc, hw, hh, hs, _⟩ := h.header
  have hv : b.validate N = a.validate N := by
    unfold Image.validate; simp only [hst, hh, hw, hs, h.length]
  unfold checkResize
  simp only [hv, hw, hh, hc]

theorem Spec.DifferInvisibly.valid (h : DifferInvisibly inv a b) {N : ℕ} (hv : a.validate N = .ok ()) : b.validate N = .ok () := by
  have hst := h.strideOf N
  obtain ⟨hc, hw, hh, hs, _⟩ := h.header
  have : b.validate N = a.validate N := by
    unfold Image.validate; simp only [hst, hh, hw, hs, h.length]
  rw [this, hv]

/-- Alpha is the same. -/
theorem Spec.DifferInvisibly.alpha (h : DifferInvisibly inv a b) (hv : a.validate 4 = .ok ()) {y x : ℕ} (hx : x < a.width) :
    sample b.buffer (b.strideOf 4) 4 y x 3 = sample a.buffer (a.strideOf 4) 4 y x 3 := by
  obtain ⟨_, hs⟩ := validate_facts hv
  rw [h.strideOf 4]
  unfold sample
  rcases h.same (y * a.strideOf 4 + x * 4 + 3) with e | ⟨y', x', c, hy', hx', hc, e, _⟩
  · exact e
  · exfalso
    generalize a.strideOf 4 = s at *
    have hyy : y = y' := by
      rcases Nat.lt_trichotomy y y' with q | q | q
      · have : (y + 1) * s ≤ y' * s := Nat.mul_le_mul_right _ q
        rw [Nat.add_mul] at this; omega
      · exact q
      · have : (y' + 1) * s ≤ y * s := Nat.mul_le_mul_right _ q
        rw [Nat.add_mul] at this; omega
    subst hyy
    omega

/-- Colours are the same, or alpha is invisible. -/
theorem Spec.DifferInvisibly.colour (h : DifferInvisibly inv a b) (hv : a.validate 4 = .ok ()) {y x c : ℕ}
    (hx : x < a.width) (hc : c < 3) :
    sample b.buffer (b.strideOf 4) 4 y x c = sample a.buffer (a.strideOf 4) 4 y x c ∨
      ∃ v, sample a.buffer (a.strideOf 4) 4 y x 3 = some v ∧ inv v := by
  obtain ⟨_, hs⟩ := validate_facts hv
  rw [h.strideOf 4]
  rcases h.same (y * a.strideOf 4 + x * 4 + c) with e | ⟨y', x', c', hy', hx', hc', e, he⟩
  · exact Or.inl e
  · right
    have hyy : y = y' ∧ x = x' := by
      generalize a.strideOf 4 = s at *
      have hyy : y = y' := by
        rcases Nat.lt_trichotomy y y' with q | q | q
        · have : (y + 1) * s ≤ y' * s := Nat.mul_le_mul_right _ q
          rw [Nat.add_mul] at this; omega
        · exact q
        · have : (y' + 1) * s ≤ y * s := Nat.mul_le_mul_right _ q
          rw [Nat.add_mul] at this; omega
      subst hyy
      exact ⟨rfl, by omega⟩
    obtain ⟨rfl, rfl⟩ := hyy
    exact he

/-- Pictures that do differ have an invisible pixel. -/
theorem Spec.DifferInvisibly.hidden (h : DifferInvisibly inv a b) (hd : a ≠ b) :
    ∃ y x v, y < a.height ∧ x < a.width ∧ sample a.buffer (a.strideOf 4) 4 y x 3 = some v ∧ inv v := by
  by_contra hn
  apply hd
  have hb : b.buffer = a.buffer := by
    apply List.ext_getElem?
    intro p
    rcases h.same p with e | ⟨y, x, c, hy, hx, _, _, v, e, hi⟩
    · exact e
    · exact absurd ⟨y, x, v, hy, hx, e, hi⟩ hn
  obtain ⟨e1, e2, e3, e4, e5⟩ := h.header
  cases a; cases b; simp_all

/-- Such a picture with a visible pixel has two alphas, and so has the other one. -/
theorem Spec.DifferInvisibly.varies (h : DifferInvisibly inv a b) (hv : a.validate 4 = .ok ()) (hs : SomeVisible inv a)
    (hd : a ≠ b) (d : S) {img : Image S} (hi : img = a ∨ img = b) :
    ∃ y x y' x', y < img.height ∧ x < img.width ∧ y' < img.height ∧ x' < img.width ∧
      pxD d img.buffer (img.strideOf 4) 4 y x 3 ≠ pxD d img.buffer (img.strideOf 4) 4 y' x' 3 := by
  obtain ⟨y, x, v, hy, hx, e, he⟩ := h.hidden hd
  obtain ⟨y', x', v', hy', hx', e', he'⟩ := hs
  have hne : v ≠ v' := by rintro rfl; exact he' he
  obtain ⟨_, hw, hh, _⟩ := h.header
  rcases hi with rfl | rfl
  · refine ⟨y, x, y', x', hy, hx, hy', hx', ?_⟩
    unfold pxD; rw [e, e']; exact hne
  · refine ⟨y, x, y', x', hh ▸ hy, hw ▸ hx, hh ▸ hy', hw ▸ hx', ?_⟩
    unfold pxD; rw [h.alpha hv hx, h.alpha hv hx', e, e']; exact hne

theorem bindEq {α β : Type} {x y : Option α} {f : α → Option β} (h : x = y) : x.bind f = y.bind f := by rw [h]

/-- If premultiplication maps every pixel by a function that ignores the colours of invisible pixels, and the alpha check
recognises pictures that differ, then the resize gives the same result for both pictures. -/
theorem noBleed {W : ℕ} {F : Format S} {A : AlphaOps S} {L : Lib} {r : ResamplingFunction} {into : Image S} (d0 : S)
    {good : S → Prop} {col : ℕ → ℕ → S → S → S} {alp : ℕ → ℕ → S → S}
    (h : DifferInvisibly inv a b)
    (hchk : checkResize W 4 F.shouldHaveBitDepth a into = .ok ()) (hr : r ≠ .nearest)
    (hne : a.width ≠ into.width ∨ a.height ≠ into.height)
    (ga : ∀ v ∈ a.buffer, good v) (gb : ∀ v ∈ b.buffer, good v)
    (hpre : ∀ src dst : Image S, src = a ∨ src = b → src.validate 4 = .ok () → dst.validate 4 = .ok () →
      src.width = dst.width → src.height = dst.height → 0 < dst.width → dst.bitDepth = into.bitDepth →
      ∃ out, A.premultiply src dst = some out ∧ SameShape out dst ∧ PaddingKept 4 dst out ∧
        ∀ y x c, y < dst.height → x < dst.width → c < 4 → sample out.buffer (dst.strideOf 4) 4 y x c =
          some (pixelVal (col dst.width x) (alp dst.width x) (fun c => pxD d0 src.buffer (src.strideOf 4) 4 y x c) c))
    (hinv : ∀ w x c c' v, good c → good c' → inv v → col w x c v = col w x c' v)
    (hn : a ≠ b → A.isNeeded a = true ∧ A.isNeeded b = true) :
    genericResizeWithAlpha W 4 F A L r b into true = genericResizeWithAlpha W 4 F A L r a into true := by
  by_cases hd : a = b
  · rw [hd]
  obtain ⟨n1, n2⟩ := hn hd
  obtain ⟨c1, c2, c3, c4, _⟩ := checkResize_ok.1 hchk
  obtain ⟨e1, e2, e3, e4, e5⟩ := h.header
  have hp : premultiplied W 4 F A true b into = premultiplied W 4 F A true a into := by
    unfold premultiplied
    rw [if_pos ⟨rfl, n2⟩, if_pos ⟨rfl, n1⟩, e2, e3]
    cases ht : tempImage W 4 F.default a.width a.height into.bitDepth with
    | none => rfl
    | some t =>
      have htv : t = ⟨List.replicate (a.width * a.height * 4) F.default, 4, a.width, a.height, a.width * 4, into.bitDepth⟩ := by
        by_cases hh : a.width * a.height * 4 < W
        · rw [tempImage_some hh] at ht
          exact (Option.some.inj ht).symm
        · simp [tempImage, hh] at ht
      have tv : t.validate 4 = .ok () := by rw [htv]; exact packed_validate (by rw [List.length_replicate])
      have tw : t.width = a.width := by rw [htv]
      have th : t.height = a.height := by rw [htv]
      have tb : t.bitDepth = into.bitDepth := by rw [htv]
      obtain ⟨o, o1, o2, o3, o4⟩ := hpre a t (Or.inl rfl) c2 tv tw.symm th.symm (by rw [tw]; exact c3.1) tb
      obtain ⟨o', p1, p2, p3, p4⟩ := hpre b t (Or.inr rfl) (h.valid c2) tv (by rw [tw, e2]) (by rw [th, e3])
        (by rw [tw]; exact c3.1) tb
      have ho : o' = o := by
        refine image_ext p2 o2 p3 o3 fun y x c hy hx hc => ?_
        rw [p4 y x c hy hx hc, o4 y x c hy hx hc]
        rw [th] at hy; rw [tw] at hx
        obtain ⟨hl, hs⟩ := validate_facts c2
        have hsome : ∀ (i : Image S), i.validate 4 = .ok () → i.height = a.height → i.width = a.width → ∀ c, c < 4 →
            ∃ v, v ∈ i.buffer ∧ sample i.buffer (i.strideOf 4) 4 y x c = some v := by
          intro i hi hih hiw c hc
          obtain ⟨il, is⟩ := validate_facts hi
          have hlt : y * i.strideOf 4 + x * 4 + c < i.buffer.length := by
            rw [il]
            have h1 : (y + 1) * i.strideOf 4 ≤ i.height * i.strideOf 4 := Nat.mul_le_mul_right _ (by omega)
            rw [Nat.add_mul] at h1
            have h2 : x * 4 + 4 ≤ i.width * 4 := by omega
            rw [Nat.mul_comm (i.strideOf 4)]
            omega
          exact ⟨i.buffer[y * i.strideOf 4 + x * 4 + c], List.getElem_mem _, List.getElem?_eq_getElem hlt⟩
        have ha3 := h.alpha (y := y) c2 hx
        unfold pixelVal
        by_cases hc3 : c < 3
        · rw [if_pos hc3, if_pos hc3]
          simp only [pxD]
          rw [ha3]
          rcases h.colour (y := y) c2 hx hc3 with e | ⟨v, e, hi⟩
          · rw [e]
          · rw [e]
            obtain ⟨v1, m1, q1⟩ := hsome a c2 rfl rfl c (by omega)
            obtain ⟨v2, m2, q2⟩ := hsome b (h.valid c2) e3 e2 c (by omega)
            rw [q1, q2]
            exact congrArg some (hinv _ _ _ _ _ (gb _ m2) (ga _ m1) hi)
        · rw [if_neg hc3, if_neg hc3]
          simp only [pxD]
          rw [ha3]
      simp only [Option.bind_eq_bind, Option.bind_some, o1, p1, ho]
  unfold genericResizeWithAlpha
  rw [h.check, hchk, hp, e2, e3]
  simp only
  rw [if_neg (by tauto), if_neg hr]
  rw [if_neg (by tauto), if_neg hr]

end PicScale
