import Verif.Lemmas.F16Pass
import Verif.Lemmas.X86F32Value

/-! Resizes of f16 images as functions of the picture. -/

namespace PicScale

open Spec

variable {H A : Type}

theorem convolve_f16 {W N : ℕ} (cpu : HalfCpu) (o : HalfOps H A) (hN : 1 ≤ N ∧ N ≤ 4)
    {table : ℕ → ℕ → Option (FilterWeights ℚ)} {store into : Image H} {vf hf : FilterWeights ℚ}
    (hs : store.validate N = .ok ()) (hd : into.validate N = .ok ()) (hsw : 0 < store.width)
    (hdw : 0 < into.width)
    (hne : store.width ≠ into.width ∨ store.height ≠ into.height)
    (hfit : store.width * into.height * N < W)
    (ev : table store.height into.height = some vf) (eh : table store.width into.width = some hf)
    (Tv : ValidTable vf store.height into.height) (Th : ValidTable hf store.width into.width) :
    ∃ out, convolve W N (formatF16 cpu o N) table store into = some out ∧ SameShape out into ∧
      PaddingMapped N (if store.width = into.width then id else hpadF16 cpu o N) into out ∧
      ∀ y x c, y < into.height → x < into.width → c < N →
        sample out.buffer (into.strideOf N) N y x c = some (sepFun N store.width store.height
          into.width into.height (vvF16 cpu o vf) (fun _ => hvF16 cpu o N hf)
          (rowPos o.zeroH store.buffer (store.strideOf N)) y x c) := by
  unfold convolve
  by_cases h1 : store.width = into.width
  · have h2 : store.height ≠ into.height := by tauto
    rw [if_neg (by tauto), if_pos h2, ev]
    obtain ⟨out, o1, o2, o3, o4⟩ := verticalF16_ok cpu o hN store into vf hs hd h1 hdw Tv
    refine ⟨out, o1, o2, ?_, ?_⟩
    · rw [if_pos h1]; exact paddingMapped_id.2 o3
    intro y x c hy hx hc
    rw [o4 y x c hy hx hc]
    simp only [sepFun, if_pos h1, if_neg h2]
  by_cases h2 : store.height = into.height
  · rw [if_neg (by tauto), if_neg (by tauto), eh]
    obtain ⟨out, o1, o2, o3, o4⟩ := horizontalF16_ok cpu o hN store into hf hs hd h2 hsw hdw Th
    refine ⟨out, o1, o2, ?_, ?_⟩
    · rw [if_neg h1]; exact o3
    intro y x c hy hx hc
    rw [o4 y x c hy hx hc]
    simp only [sepFun, if_neg h1, if_pos h2]
  · rw [if_pos ⟨h1, h2⟩, tempImage_some hfit, ev, eh]
    simp only [Option.bind_eq_bind, Option.bind_some]
    obtain ⟨t, t1, t2, _, t4⟩ := verticalF16_ok cpu o hN store
      { buffer := List.replicate (store.width * into.height * N) o.zeroH, channels := N,
        width := store.width, height := into.height, stride := store.width * N, bitDepth := into.bitDepth }
      vf hs (packed_validate (by rw [List.length_replicate])) rfl hsw Tv
    obtain ⟨_, _, _, _, _, tl⟩ := t2
    simp only [List.length_replicate] at tl
    simp only [packed_strideOf] at t4
    have t1' : (formatF16 cpu o N).vertical store
      { buffer := List.replicate (store.width * into.height * N) (formatF16 cpu o N).default, channels := N,
        width := store.width, height := into.height, stride := store.width * N, bitDepth := into.bitDepth } vf = some t := t1
    rw [t1']
    simp only [Option.bind_some]
    have hmid : (Image.mk t.buffer N store.width into.height (store.width * N) into.bitDepth).validate N
        = .ok () := packed_validate tl
    obtain ⟨out, o1, o2, o3, o4⟩ := horizontalF16_ok cpu o hN
      (Image.mk t.buffer N store.width into.height (store.width * N) into.bitDepth) into hf hmid hd rfl
      hsw hdw Th
    refine ⟨out, o1, o2, ?_, ?_⟩
    · rw [if_neg h1]; exact o3
    intro y x c hy hx hc
    rw [o4 y x c hy hx hc]
    simp only [sepFun, if_neg h1, if_neg h2]
    refine congrArg some (hvF16_congr cpu o Th hx hc ?_)
    intro q hq
    rw [packed_strideOf]
    have hx' : q / N < store.width := Nat.div_lt_of_lt_mul (by rw [Nat.mul_comm]; exact hq)
    have hc' : q % N < N := Nat.mod_lt _ hN.1
    have hq' : q / N * N + q % N = q := by rw [Nat.mul_comm]; exact Nat.div_add_mod q N
    have := t4 y (q / N) (q % N) hy hx' hc'
    rw [← hq', rowPos_pxD]
    simp only [pxD]
    rw [this]
    rfl

theorem resize_f16 {W N : ℕ} {L : Lib} {r : ResamplingFunction} {store into : Image H}
    (h : AcceptedF W N r store into) (cpu : HalfCpu) (o : HalfOps H A) :
    ∃ vf hf out, tableOf L r store.height into.height = some vf ∧ tableOf L r store.width into.width = some hf ∧
      ValidTable vf store.height into.height ∧ ValidTable hf store.width into.width ∧
      genericResize W N (formatF16 cpu o N) L r store into = some (.ok (), out) ∧ SameShape out into ∧
      PaddingMapped N (if store.width = into.width then id else hpadF16 cpu o N) into out ∧
      ∀ y x c, y < into.height → x < into.width → c < N →
        sample out.buffer (into.strideOf N) N y x c = some (sepFun N store.width store.height
          into.width into.height (vvF16 cpu o vf) (fun _ => hvF16 cpu o N hf)
          (rowPos o.zeroH store.buffer (store.strideOf N)) y x c) := by
  obtain ⟨c1, c2, c3, _⟩ := checkResize_ok.1 h.checked
  obtain ⟨vf, ev, Tv, Sv⟩ := table_exists L r (out := into.height) c3.2.1 h.small.2 (fun ha => (h.area ha).2)
  obtain ⟨hf, eh, Th, Sh⟩ := table_exists L r (out := into.width) c3.1 h.small.1 (fun ha => (h.area ha).1)
  obtain ⟨out, o1, o2, o3, o4⟩ := convolve_f16 (W := W) cpu o h.channels
    (table := tableOf L r) c2 c1 c3.1 c3.2.2.1 h.sizes h.fits ev eh Tv Th
  exact ⟨vf, hf, out, ev, eh, Tv, Th, genericResize_conv (F := formatF16 cpu o N) h.checked h.filter h.sizes o1, o2, o3, o4⟩

/-! ### with binary32 arithmetic -/

theorem vvF16_left (cpu : HalfCpu) (o : HalfOps H ℚ) (ho : o.arith = ratOps) (fw : FilterWeights ℚ) (y q : ℕ)
    (P : ℕ → ℕ → H) (hn : 1 ≤ (fw.bound y).size) :
    vvF16 cpu o fw y q P =
      let vec := cpu.avx2 && cpu.f16c
      let bits := vec || cpu.f16c || !cpu.sse41
      o.narrowX bits (leftF (if vec then cpu.fma else if cpu.sse41 then false else cpu.fused)
        (fun k => o.widenX bits (P ((fw.bound y).start + k) q)) (fun k => fw.weight y k) (fw.bound y).size) := by
  obtain ⟨s, a, f, m, u⟩ := cpu
  unfold vvF16
  rw [ho]
  cases a <;> cases f <;> cases s <;>
    simp only [Bool.and_true, Bool.and_false, Bool.false_and, Bool.true_and, Bool.not_true, Bool.not_false, Bool.or_true, Bool.or_false,
      Bool.false_or, Bool.true_or, Bool.false_eq_true, if_true, if_false, and_true, true_and, and_false, false_and, and_self,
      HalfOps.narrowX, HalfOps.widenX] <;>
    first
    | exact congrArg _ (chain_leftF _ hn)
    | exact congrArg _ (scalar_leftF _ hn)

end PicScale
