import Verif.Lemmas.Avx512U16
import Verif.Lemmas.X86F32Value
import Verif.Props.X86U16

/-!
Property theorems about u16 images with AVX-512: C230–C232.
-/

namespace PicScale

open Spec

theorem AcceptedCall16.by512 {W N : ℕ} {r : ResamplingFunction} {store into : Image ℕ} (h : AcceptedCall16 W N r store into)
    (cpu : Cpu512) (dot fma fused : Bool) (L : Lib) :
    AcceptedBy W N (formatU16X512 cpu dot fma fused N) (fun _ => True) (fun fw out => PlainShape fw out) L r store into :=
  ⟨h.channels, h.checked, h.filter, h.sizes, h.small, h.area, h.fits, fun _ _ => trivial,
    ⟨fun _ _ s => s, fun _ _ s => s⟩⟩

theorem u16X512_raw {W N : ℕ} {L : Lib} {r : ResamplingFunction} {store into : Image ℕ}
    (h : AcceptedCall16 W N r store into) (cpu : Cpu512) (dot fma fused : Bool) :
    ∃ vf hf out, tableOf L r store.height into.height = some vf ∧ tableOf L r store.width into.width = some hf ∧
      ValidTable vf store.height into.height ∧ ValidTable hf store.width into.width ∧
      PlainShape vf into.height ∧ PlainShape hf into.width ∧
      genericResize W N (formatU16X512 cpu dot fma fused N) L r store into = some (.ok (), out) ∧
      SameShape out into ∧ PaddingKept N into out ∧
      ∀ y x c, y < into.height → x < into.width → c < N →
        sample out.buffer (into.strideOf N) N y x c = some (sepFun N store.width store.height
          into.width into.height (vv512 cpu fma fused N into.bitDepth vf store.width)
          (hvX86 cpu.base fma fused N into.bitDepth hf into.height)
          (rowPos 0 store.buffer (store.strideOf N)) y x c) :=
  resize_fun (passFun_u16X512 cpu dot fma fused h.channels into.bitDepth) (h.by512 cpu dot fma fused L) rfl

/-! ### C230: no out-of-bounds access, and independence of avx512vnni -/

/-- **C230.** On every CPU with or without AVX-512 an accepted resize of u16 images — any depth, any number of channels,
any samples — returns normally, reads nothing outside the buffers and writes only pixels of the destination. -/
theorem C230_u16_no_oob {W N : ℕ} {L : Lib} {r : ResamplingFunction} {store into : Image ℕ}
    (h : AcceptedCall16 W N r store into) (cpu : Cpu512) (dot fma fused : Bool) :
    ∃ out, genericResize W N (formatU16X512 cpu dot fma fused N) L r store into = some (.ok (), out) ∧
      SameShape out into ∧ PaddingKept N into out := by
  obtain ⟨_, _, out, _, _, _, _, _, _, h1, h2, h3, _⟩ := u16X512_raw (L := L) h cpu dot fma fused
  exact ⟨out, h1, h2, h3⟩

/-- **C230, VNNI.** Whether the CPU has `avx512vnni` does not change the result, and above 12 bits neither does AVX-512. -/
theorem C230_same {W N : ℕ} {L : Lib} {r : ResamplingFunction} {store into : Image ℕ}
    (h : AcceptedCall16 W N r store into) (cpu : Cpu512) (fma fused : Bool) :
    genericResize W N (formatU16X512 cpu true fma fused N) L r store into =
      genericResize W N (formatU16X512 cpu false fma fused N) L r store into ∧
    (12 < into.bitDepth ∨ store.height = into.height → ∀ dot,
      genericResize W N (formatU16X512 cpu dot fma fused N) L r store into =
        genericResize W N (formatU16X86 cpu.base fma fused N) L r store into) := by
  obtain ⟨vf, hf, out, ev, eh, _, _, _, _, o1, o2, o3, o4⟩ := u16X512_raw (L := L) h cpu true fma fused
  obtain ⟨vf', hf', out', ev', eh', _, _, _, _, p1, p2, p3, p4⟩ := u16X512_raw (L := L) h cpu false fma fused
  rw [ev] at ev'
  rw [eh] at eh'
  obtain rfl := Option.some.inj ev'
  obtain rfl := Option.some.inj eh'
  constructor
  · rw [o1, p1, image_ext o2 p2 o3 p3 fun y x c hy hx hc => by rw [o4 y x c hy hx hc, p4 y x c hy hx hc]]
  · intro h12 dot
    obtain ⟨vf1, hf1, out1, ev1, eh1, _, _, _, _, a1, a2, a3, a4⟩ := u16X512_raw (L := L) h cpu dot fma fused
    obtain ⟨vf2, hf2, out2, ev2, eh2, _, _, _, _, b1, b2, b3, b4⟩ := u16X86_raw (L := L) h cpu.base fma fused
    rw [ev1] at ev2
    rw [eh1] at eh2
    obtain rfl := Option.some.inj ev2
    obtain rfl := Option.some.inj eh2
    rw [a1, b1, image_ext a2 b2 a3 b3 fun y x c hy hx hc => ?_]
    rw [a4 y x c hy hx hc, b4 y x c hy hx hc]
    unfold sepFun vv512
    rcases h12 with h12 | h12
    · simp [h12]
    · simp [h12]

example : ∃ out, genericResize (2 ^ 64) 4 (formatU16X512 ⟨⟨true, true⟩, true, false, false⟩ true true true 4) demoLib .bilinear
    (Demo.usrc 10) (Demo.udst 10) = some (.ok (), out) ∧ PaddingKept 4 (Demo.udst 10) out := by
  obtain ⟨out, o1, _, o3⟩ := C230_u16_no_oob (L := demoLib) Demo.ucall10 ⟨⟨true, true⟩, true, false, false⟩ true true true
  exact ⟨out, o1, o3⟩

/-! ### C231: values -/

theorem vv512_lb {cpu : Cpu512} (h5 : cpu.avx512 = true) {fma fused : Bool} {N d : ℕ} (hd : d ≤ 12) {fw : FilterWeights ℚ}
    {inn out : ℕ} (hT : ValidTable fw inn out) (hO : PlainShape fw out)
    (h30 : NoOverflow30At (numericalApproximation F32.rnd fw) out (2 ^ d - 1))
    {width y q : ℕ} (hy : y < out) {P : ℕ → ℕ → ℕ} (hP : ∀ y q, P y q ≤ 2 ^ d - 1) :
    vv512 cpu fma fused N d fw width y q P =
      fixedRound (2 ^ d - 1) (fw.bound y).size (fun k => (numericalApproximation F32.rnd fw).weight y k)
        (fun k => P ((fw.bound y).start + k) q) := by
  have hq := hO.q_valid (ρ := F32.rnd) hT
  have hW := q_i16 hO hT
  have hlen := hq.weights_len
  have hle := hq.size_le y hy
  have hal : (y + 1) * (numericalApproximation F32.rnd fw).alignedSize ≤
      out * (numericalApproximation F32.rnd fw).alignedSize := Nat.mul_le_mul_right _ hy
  rw [Nat.add_mul] at hal
  unfold vv512
  rw [if_pos ⟨h5, by omega⟩]
  have := (lb_round (d := d) (n := (fw.bound y).size) (w := rowW (numericalApproximation F32.rnd fw) y) (s := colOf fw P y q) hd
      (by
        intro k hk
        apply hW
        have hb : (numericalApproximation F32.rnd fw).bound y = fw.bound y := rfl
        rw [hb] at hle
        unfold rowW
        rw [List.getD_eq_getElem?_getD, List.getElem?_drop, List.getElem?_eq_getElem (by omega)]
        exact List.getElem_mem _)
      (fun k _ => hP _ _)
      (by
        have := h30 y hy
        simp only [rowW_getD]
        exact this)).1
  simp only [rowW_getD] at this
  exact this

/-- **C231.** With AVX-512, a resize of a u16 image of at most 12 bits gives, for every width, height and number of
channels, the separable fixed point convolution of the picture: columns first, then rows, each weighted sum rounded to
nearest and clamped to the depth; every sample comes from its own column. (Without AVX-512 this fails for most widths,
`C77_violated`.) -/
theorem C231_values {W N : ℕ} {L : Lib} {r : ResamplingFunction} {store into : Image ℕ}
    (h : AcceptedLb W N L r store into) {cpu : Cpu512} (h5 : cpu.avx512 = true) (dot fma fused : Bool) :
    ∃ qv qh out, IsTable L r store.height into.height qv ∧ IsTable L r store.width into.width qh ∧
      ValidTable qv store.height into.height ∧ ValidTable qh store.width into.width ∧
      genericResize W N (formatU16X512 cpu dot fma fused N) L r store into = some (.ok (), out) ∧
      SameShape out into ∧ PaddingKept N into out ∧
      ∀ y x c, y < into.height → x < into.width → c < N →
        sample out.buffer (into.strideOf N) N y x c = some
          (separable store.width store.height into.width into.height
            (fun i => (qv.bound i).start)
            (fun i => fixedRound (2 ^ into.bitDepth - 1) (qv.bound i).size (fun k => qv.weight i k))
            (fun i => (qh.bound i).start)
            (fun i => fixedRound (2 ^ into.bitDepth - 1) (qh.bound i).size (fun k => qh.weight i k))
            (fun y x => pxD 0 store.buffer (store.strideOf N) N y x c) y x) := by
  obtain ⟨vf, hf, out, ev, eh, Tv, Th, Sv, Sh, o1, o2, o3, o4⟩ := u16X512_raw (L := L) h.call cpu dot fma fused
  have nv := h.noOverflow.1 _ ⟨vf, ev, rfl⟩
  have nh := h.noOverflow.2 _ ⟨hf, eh, rfl⟩
  have hP := rowPos_le h.inRange (store.strideOf N)
  refine ⟨_, _, out, ⟨vf, ev, rfl⟩, ⟨hf, eh, rfl⟩, Sv.q_valid Tv, Sh.q_valid Th, o1, o2, o3, ?_⟩
  intro y x c hy hx hc
  rw [o4 y x c hy hx hc]
  congr 1
  unfold sepFun separable
  simp only [vv512_lb h5 h.depth Tv Sv nv hy hP, rowPos_pxD, na_bound]
  by_cases hw : store.width = into.width
  · rw [if_pos hw, if_pos hw]
  · rw [if_neg hw, if_neg hw, hvX86_lb h.depth Th Sh nh hx]
    · simp only [rowPos_pxD]
    · intro q
      split_ifs
      · exact hP _ _
      · exact fixedRound_le _ _ _ _

/-- The call of `C77_violated`: five columns of 10 bits. -/
theorem Demo.five : AcceptedLb (2 ^ 64) 1 demoLib .bilinear ⟨[1, 2, 3, 4, 5, 1, 2, 3, 4, 5], 1, 5, 2, 5, 10⟩
    ⟨List.replicate 5 0, 1, 5, 1, 5, 10⟩ :=
  ⟨by constructor <;> decide +kernel, by decide, by decide +kernel, bothTables_of_check (by decide +kernel) (by decide +kernel)⟩

example : ∃ out, genericResize (2 ^ 64) 1 (formatU16X512 ⟨⟨true, true⟩, true, false, false⟩ true false false 1) demoLib .bilinear
      ⟨[1, 2, 3, 4, 5, 1, 2, 3, 4, 5], 1, 5, 2, 5, 10⟩ ⟨List.replicate 5 0, 1, 5, 1, 5, 10⟩ = some (.ok (), out) := by
  obtain ⟨_, _, out, _, _, _, _, o, _⟩ := C231_values Demo.five (cpu := ⟨⟨true, true⟩, true, false, false⟩) rfl true false false
  exact ⟨out, o⟩

/-- The result the AVX2 and SSE4.1 code get wrong. -/
example : genericResize (2 ^ 64) 1 (formatU16X512 ⟨⟨true, true⟩, true, false, false⟩ true false false 1) demoLib .bilinear
      ⟨[1, 2, 3, 4, 5, 1, 2, 3, 4, 5], 1, 5, 2, 5, 10⟩ ⟨List.replicate 5 0, 1, 5, 1, 5, 10⟩ =
      some (.ok (), ⟨[1, 2, 3, 4, 5], 1, 5, 1, 5, 10⟩) := by
  decide +kernel

/-- **C232.** With AVX-512, a resize of samples within a depth of at most 12 bits writes only samples within the depth. -/
theorem C232_range {W N : ℕ} {L : Lib} {r : ResamplingFunction} {store into : Image ℕ}
    (h : AcceptedLb W N L r store into) {cpu : Cpu512} (h5 : cpu.avx512 = true) (dot fma fused : Bool) :
    ∃ out, genericResize W N (formatU16X512 cpu dot fma fused N) L r store into = some (.ok (), out) ∧
      ∀ y x c, y < into.height → x < into.width → c < N →
        ∃ v, sample out.buffer (into.strideOf N) N y x c = some v ∧ v ≤ 2 ^ into.bitDepth - 1 := by
  obtain ⟨qv, qh, out, _, _, _, _, o1, _, _, o4⟩ := C231_values h h5 dot fma fused
  refine ⟨out, o1, fun y x c hy hx hc => ⟨_, o4 y x c hy hx hc, ?_⟩⟩
  unfold separable
  dsimp only
  split_ifs with h1 h2
  · have := rowPos_le h.inRange (store.strideOf N) y (x * N + c)
    rwa [rowPos_pxD] at this
  · exact fixedRound_le _ _ _ _
  all_goals exact fixedRound_le _ _ _ _

example : ∃ out, genericResize (2 ^ 64) 1 (formatU16X512 ⟨⟨true, true⟩, true, false, false⟩ true false false 1) demoLib .bilinear
      ⟨[1, 2, 3, 4, 5, 1, 2, 3, 4, 5], 1, 5, 2, 5, 10⟩ ⟨List.replicate 5 0, 1, 5, 1, 5, 10⟩ = some (.ok (), out) ∧
      ∃ v, sample out.buffer 5 1 0 4 0 = some v ∧ v ≤ 1023 := by
  obtain ⟨out, o, h⟩ := C232_range Demo.five (cpu := ⟨⟨true, true⟩, true, false, false⟩) rfl true false false
  exact ⟨out, o, h 0 4 0 (by decide) (by decide) (by decide)⟩

end PicScale
