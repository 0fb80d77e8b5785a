import Verif.Props.OrderF32
import Verif.Props.VectorRange
import Verif.Props.NeonU16
import Verif.Props.Avx512U16

/-!
Property theorems C271, C272: brighter u16 pictures give brighter results.
-/

namespace PicScale

open F32 Spec Finset

/-! ### two passes that read whole rows -/

/-- Two passes; the vertical pass may read every position of the row. -/
theorem sepFun_relAll {S : Type} {R : S → S → Prop} {N sw sh dw dh : ℕ} {vs vn hs hn : ℕ → ℕ}
    {vv : ℕ → ℕ → (ℕ → ℕ → S) → S} {hv : ℕ → ℕ → ℕ → (ℕ → S) → S} {p p' : ℕ → ℕ → S} {y x c : ℕ}
    (Tv : vs y + vn y ≤ sh) (Th : hs x + hn x ≤ sw) (hy : y < dh) (hx : x < dw) (hc : c < N)
    (hP : ∀ j q, j < sh → q < sw * N → R (p j q) (p' j q))
    (hvv : ∀ q, q < sw * N → (∀ k q', k < vn y → q' < sw * N → R (p (vs y + k) q') (p' (vs y + k) q')) →
      R (vv y q p) (vv y q p'))
    (hhv : ∀ r r' : ℕ → S, (∀ k c', k < hn x → c' < N → R (r ((hs x + k) * N + c')) (r' ((hs x + k) * N + c'))) →
      R (hv y x c r) (hv y x c r')) :
    R (sepFun N sw sh dw dh vv hv p y x c) (sepFun N sw sh dw dh vv hv p' y x c) := by
  have col : ∀ q, q < sw * N → R (if sh = dh then p y q else vv y q p) (if sh = dh then p' y q else vv y q p') := by
    intro q hq
    split_ifs with e
    · exact hP y q (by omega) hq
    · exact hvv _ hq fun k q' hk hq' => hP _ _ (by omega) hq'
  unfold sepFun
  dsimp only
  by_cases e : sw = dw
  · rw [if_pos e, if_pos e]; exact col _ (pos_lt (by omega) hc)
  · rw [if_neg e, if_neg e]
    exact hhv _ _ fun k c' hk hc' => col _ (pos_lt (by omega) hc')

theorem Brighter.rows {N : ℕ} {store store' : Image ℕ} (hN : 1 ≤ N) (hp : Brighter N store store') (j q : ℕ)
    (hj : j < store.height) (hq : q < store.width * N) :
    rowPos 0 store.buffer (store.strideOf N) j q ≤ rowPos 0 store'.buffer (store'.strideOf N) j q := by
  have e : q = q / N * N + q % N := by rw [Nat.mul_comm]; exact (Nat.div_add_mod q N).symm
  rw [e, rowPos_pxD, rowPos_pxD]
  exact hp.samples _ _ _ hj (Nat.div_lt_of_lt_mul (by rwa [Nat.mul_comm])) (Nat.mod_lt _ (by omega))

theorem readColumn_lt {B n p : ℕ} (hB : B = 16 ∨ B = 32) (hp : p < n) : readColumn B n p < n := by
  unfold readColumn tailStart
  rcases hB with rfl | rfl <;> split_ifs <;> omega

theorem groupOf_cases (cpu : Cpu) : groupOf cpu = 16 ∨ groupOf cpu = 32 := by
  unfold groupOf; split_ifs <;> simp

theorem fixedHalfDown_mono {hi n : ℕ} {w : ℕ → ℤ} {p p' : ℕ → ℕ} (hw : ∀ k, 0 ≤ w k)
    (hp : ∀ k, k < n → p k ≤ p' k) : fixedHalfDown hi n w p ≤ fixedHalfDown hi n w p' := by
  unfold fixedHalfDown fixRoundDown
  apply clamp_mono
  apply Int.ceil_le_ceil
  have : ((wsum n w (fun k => (p k : ℤ)) : ℤ) : ℚ) ≤ wsum n w (fun k => (p' k : ℤ)) := by
    exact_mod_cast wsum_mono hw hp
  linarith

/-! ### C271: up to 12 bits -/

/-- Both tables of an accepted call with an averaging filter have no negative weights. -/
theorem AcceptedCall16.nonneg {W N : ℕ} {L : Lib} {r : ResamplingFunction} {store into : Image ℕ} (hr : Averages L r)
    (h : AcceptedCall16 W N r store into) :
    (∀ q, IsTable L r store.height into.height q → ∀ i k, 0 ≤ q.weight i k) ∧
      ∀ q, IsTable L r store.width into.width q → ∀ i k, 0 ≤ q.weight i k := by
  obtain ⟨_, _, c3, _⟩ := checkResize_ok.1 h.checked
  exact ⟨fun q hq => table_nonneg hr c3.2.1 h.small.2 (fun ha => (h.area ha).2) hq,
    fun q hq => table_nonneg hr c3.1 h.small.1 (fun ha => (h.area ha).1) hq⟩

/-- **C271, x86.** With a filter without negative weights, raising samples of a u16 picture of up to 12 bits never lowers
a sample of the result, on every x86 CPU — whichever column the vertical handlers read (C77). -/
theorem C271_u16_monotone {W N : ℕ} {L : Lib} {r : ResamplingFunction} (hr : Averages L r)
    {store store' into out out' : Image ℕ} (h : AcceptedCall16 W N r store into) (h' : AcceptedCall16 W N r store' into)
    (hd : into.bitDepth ≤ 12) (hb : ∀ v ∈ store.buffer, v ≤ 2 ^ into.bitDepth - 1)
    (hb' : ∀ v ∈ store'.buffer, v ≤ 2 ^ into.bitDepth - 1) (cpu : Cpu) (fma fused : Bool) (hp : Brighter N store store')
    (ho : genericResize W N (formatU16X86 cpu fma fused N) L r store into = some (.ok (), out))
    (ho' : genericResize W N (formatU16X86 cpu fma fused N) L r store' into = some (.ok (), out')) :
    ∀ y x c, y < into.height → x < into.width → c < N →
      pxD 0 out.buffer (into.strideOf N) N y x c ≤ pxD 0 out'.buffer (into.strideOf N) N y x c := by
  obtain ⟨qv, qh, o, tv, th, Tv, Th, o1, _, _, o4⟩ := u16X86_values (h.lb (L := L) hr hd hb) cpu fma fused
  obtain ⟨qv', qh', o', tv', th', _, _, o1', _, _, o4'⟩ := u16X86_values (h'.lb (L := L) hr hd hb') cpu fma fused
  rw [← hp.height] at tv'
  rw [← hp.width] at th'
  obtain rfl := isTable_unique tv tv'
  obtain rfl := isTable_unique th th'
  rw [ho] at o1
  obtain rfl : out = o := by simpa using o1
  rw [ho'] at o1'
  obtain rfl : out' = o' := by simpa using o1'
  obtain ⟨nv, nh⟩ := h.nonneg hr
  intro y x c hy hx hc
  unfold pxD
  rw [o4 y x c hy hx hc, o4' y x c hy hx hc, ← hp.width, ← hp.height, Option.getD_some, Option.getD_some]
  refine sepFun_relAll (R := (· ≤ ·)) (vs := fun i => (qv.bound i).start) (vn := fun i => (qv.bound i).size)
    (hs := fun i => (qh.bound i).start) (hn := fun i => (qh.bound i).size) (Tv.inside y hy) (Th.inside x hx) hy hx hc
    (hp.rows h.channels.1) (fun q hq a => ?_) (fun r r' a => fixedRound_mono (nh _ th _) fun k hk => a k c hk hc)
  unfold vLb
  split_ifs
  · exact fixedRound_mono (nv _ tv _) fun k hk => a k _ hk (readColumn_lt (groupOf_cases cpu) hq)
  · exact fixedFloor_mono (nv _ tv _) fun k hk => a k _ hk hq

/-- **C271, AArch64** (without half precision arithmetic). -/
theorem C271_u16_monotone_neon {W N : ℕ} {L : Lib} {r : ResamplingFunction} (hr : Averages L r)
    {store store' into out out' : Image ℕ} (h : AcceptedCall16 W N r store into) (h' : AcceptedCall16 W N r store' into)
    (hd : into.bitDepth ≤ 12) (hb : ∀ v ∈ store.buffer, v ≤ 2 ^ into.bitDepth - 1)
    (hb' : ∀ v ∈ store'.buffer, v ≤ 2 ^ into.bitDepth - 1) (hp : Brighter N store store')
    (ho : genericResize W N (formatU16Neon false N) L r store into = some (.ok (), out))
    (ho' : genericResize W N (formatU16Neon false N) L r store' into = some (.ok (), out')) :
    ∀ y x c, y < into.height → x < into.width → c < N →
      pxD 0 out.buffer (into.strideOf N) N y x c ≤ pxD 0 out'.buffer (into.strideOf N) N y x c := by
  obtain ⟨qv, qh, o, tv, th, Tv, Th, o1, _, _, o4⟩ := u16Neon_values (h.lb (L := L) hr hd hb)
  obtain ⟨qv', qh', o', tv', th', _, _, o1', _, _, o4'⟩ := u16Neon_values (h'.lb (L := L) hr hd hb')
  rw [← hp.height] at tv'
  rw [← hp.width] at th'
  obtain rfl := isTable_unique tv tv'
  obtain rfl := isTable_unique th th'
  rw [ho] at o1
  obtain rfl : out = o := by simpa using o1
  rw [ho'] at o1'
  obtain rfl : out' = o' := by simpa using o1'
  obtain ⟨nv, nh⟩ := h.nonneg hr
  intro y x c hy hx hc
  unfold pxD
  rw [o4 y x c hy hx hc, o4' y x c hy hx hc, ← hp.width, ← hp.height, Option.getD_some, Option.getD_some]
  refine sepFun_relAll (R := (· ≤ ·)) (vs := fun i => (qv.bound i).start) (vn := fun i => (qv.bound i).size)
    (hs := fun i => (qh.bound i).start) (hn := fun i => (qh.bound i).size) (Tv.inside y hy) (Th.inside x hx) hy hx hc
    (hp.rows h.channels.1) (fun q hq a => ?_) (fun r r' a => ?_)
  · exact fixedHalfDown_mono (nv _ tv _) fun k hk => a k _ hk (readColumn16_lt hq)
  · unfold hDown
    split_ifs
    · exact fixedHalfDown_mono (nh _ th _) fun k hk => a k c hk hc
    · exact fixedRound_mono (nh _ th _) fun k hk => a k c hk hc

/-- **C271, AVX-512.** -/
theorem C271_u16_monotone_512 {W N : ℕ} {L : Lib} {r : ResamplingFunction} (hr : Averages L r)
    {store store' into out out' : Image ℕ} (h : AcceptedCall16 W N r store into) (h' : AcceptedCall16 W N r store' into)
    (hd : into.bitDepth ≤ 12) (hb : ∀ v ∈ store.buffer, v ≤ 2 ^ into.bitDepth - 1)
    (hb' : ∀ v ∈ store'.buffer, v ≤ 2 ^ into.bitDepth - 1) {cpu : Cpu512} (h5 : cpu.avx512 = true) (dot fma fused : Bool)
    (hp : Brighter N store store')
    (ho : genericResize W N (formatU16X512 cpu dot fma fused N) L r store into = some (.ok (), out))
    (ho' : genericResize W N (formatU16X512 cpu dot fma fused N) L r store' into = some (.ok (), out')) :
    ∀ y x c, y < into.height → x < into.width → c < N →
      pxD 0 out.buffer (into.strideOf N) N y x c ≤ pxD 0 out'.buffer (into.strideOf N) N y x c := by
  obtain ⟨qv, qh, o, tv, th, Tv, Th, o1, _, _, o4⟩ := C231_values (h.lb (L := L) hr hd hb) h5 dot fma fused
  obtain ⟨qv', qh', o', tv', th', _, _, o1', _, _, o4'⟩ := C231_values (h'.lb (L := L) hr hd hb') h5 dot fma fused
  rw [← hp.height] at tv'
  rw [← hp.width] at th'
  obtain rfl := isTable_unique tv tv'
  obtain rfl := isTable_unique th th'
  rw [ho] at o1
  obtain rfl : out = o := by simpa using o1
  rw [ho'] at o1'
  obtain rfl : out' = o' := by simpa using o1'
  obtain ⟨nv, nh⟩ := h.nonneg hr
  intro y x c hy hx hc
  have hin := Th.inside x hx
  have hiv := Tv.inside y hy
  have col : ∀ x', x' < store.width →
      (if store.height = into.height then pxD 0 store.buffer (store.strideOf N) N y x' c
        else fixedRound (2 ^ into.bitDepth - 1) (qv.bound y).size (fun k => qv.weight y k)
          (fun k => pxD 0 store.buffer (store.strideOf N) N ((qv.bound y).start + k) x' c)) ≤
      (if store.height = into.height then pxD 0 store'.buffer (store'.strideOf N) N y x' c
        else fixedRound (2 ^ into.bitDepth - 1) (qv.bound y).size (fun k => qv.weight y k)
          (fun k => pxD 0 store'.buffer (store'.strideOf N) N ((qv.bound y).start + k) x' c)) := by
    intro x' hx'
    split_ifs with e
    · exact hp.samples y x' c (by omega) hx' hc
    · exact fixedRound_mono (nv _ tv _) fun k hk => hp.samples _ _ _ (by omega) hx' hc
  unfold pxD
  rw [o4 y x c hy hx hc, o4' y x c hy hx hc, ← hp.width, ← hp.height, Option.getD_some, Option.getD_some]
  unfold separable
  dsimp only
  by_cases e : store.width = into.width
  · rw [if_pos e, if_pos e]; exact col x (by omega)
  · rw [if_neg e, if_neg e]
    exact fixedRound_mono (nh _ th _) fun k hk => col _ (by omega)

/-! ### examples -/

def Demo.ubright (d : ℕ) : Image ℕ := { Demo.usrc d with buffer := (Demo.usrc d).buffer.map (fun v => v + 1) }

theorem Demo.ubrighter (d : ℕ) : Brighter 4 (Demo.usrc d) (Demo.ubright d) := by
  refine ⟨rfl, rfl, ?_⟩
  have : ∀ y < 5, ∀ x < 8, ∀ c < 4, pxD 0 (Demo.usrc 10).buffer 32 4 y x c ≤ pxD 0 (Demo.ubright 10).buffer 32 4 y x c := by
    decide +kernel
  exact fun y x c hy hx hc => this y hy x hx c hc

theorem Demo.ubright10 : AcceptedCall16 (2 ^ 64) 4 .bilinear (Demo.ubright 10) (Demo.udst 10) := by
  constructor <;> decide +kernel

example {out out' : Image ℕ}
    (ho : genericResize (2 ^ 64) 4 (formatU16X86 ⟨true, true⟩ true true 4) demoLib .bilinear (Demo.usrc 10) (Demo.udst 10) = some (.ok (), out))
    (ho' : genericResize (2 ^ 64) 4 (formatU16X86 ⟨true, true⟩ true true 4) demoLib .bilinear (Demo.ubright 10) (Demo.udst 10) = some (.ok (), out')) :
    pxD 0 out.buffer 9 4 2 1 3 ≤ pxD 0 out'.buffer 9 4 2 1 3 :=
  C271_u16_monotone (L := demoLib) (Or.inl (by decide)) Demo.ucall10 Demo.ubright10 (by decide) (by decide +kernel)
    (by decide +kernel) _ _ _ (Demo.ubrighter 10) ho ho' 2 1 3 (by decide) (by decide) (by decide)

example {out out' : Image ℕ}
    (ho : genericResize (2 ^ 64) 4 (formatU16Neon false 4) demoLib .bilinear (Demo.usrc 10) (Demo.udst 10) = some (.ok (), out))
    (ho' : genericResize (2 ^ 64) 4 (formatU16Neon false 4) demoLib .bilinear (Demo.ubright 10) (Demo.udst 10) = some (.ok (), out')) :
    pxD 0 out.buffer 9 4 2 1 3 ≤ pxD 0 out'.buffer 9 4 2 1 3 :=
  C271_u16_monotone_neon (L := demoLib) (Or.inl (by decide)) Demo.ucall10 Demo.ubright10 (by decide) (by decide +kernel)
    (by decide +kernel) (Demo.ubrighter 10) ho ho' 2 1 3 (by decide) (by decide) (by decide)

example {out out' : Image ℕ}
    (ho : genericResize (2 ^ 64) 4 (formatU16X512 ⟨⟨true, true⟩, true, false, false⟩ true false false 4) demoLib .bilinear
      (Demo.usrc 10) (Demo.udst 10) = some (.ok (), out))
    (ho' : genericResize (2 ^ 64) 4 (formatU16X512 ⟨⟨true, true⟩, true, false, false⟩ true false false 4) demoLib .bilinear
      (Demo.ubright 10) (Demo.udst 10) = some (.ok (), out')) :
    pxD 0 out.buffer 9 4 2 1 3 ≤ pxD 0 out'.buffer 9 4 2 1 3 :=
  C271_u16_monotone_512 (L := demoLib) (Or.inl (by decide)) Demo.ucall10 Demo.ubright10 (by decide) (by decide +kernel)
    (by decide +kernel) rfl _ _ _ (Demo.ubrighter 10) ho ho' 2 1 3 (by decide) (by decide) (by decide)

end PicScale
