import Verif.Props.F16

/-!
Property theorems about the half conversions: C125–C127.

`dec h` is the value of the pattern `h` of a finite half, `dec32 b` of the pattern `b` of a finite single. Patterns of
finite halves are below `0x7C00`, with the sign bit between `0x8000` and `0xFC00`; those of finite singles are below
`0x7F800000`, with the sign bit between `0x80000000` and `0xFF800000`.
-/

namespace PicScale

open Spec F16

/-! ### C125: widening without F16C -/

/-- **C125.** The code that widens halves on CPUs without F16C gives exactly the value of the half, for every finite
half: normal, subnormal, zero, of either sign. -/
theorem C125_widen_fallback {h : ℕ} (hf : FiniteHalf h) : dec32 (widenFb h) = dec h := dec32_widenFb hf.1 hf.2

/-- And the result is a finite single with the sign of the half. -/
theorem C125_widen_finite {h : ℕ} (hf : FiniteHalf h) :
    (h < 0x8000 → widenFb h < 0x7F800000) ∧ (0x8000 ≤ h → 0x80000000 ≤ widenFb h ∧ widenFb h < 0xFF800000) := by
  obtain ⟨h1, h2⟩ := hf
  have key : widenMag h < 0x7F800000 := by
    unfold widenMag
    split_ifs with a b
    · norm_num
    · have := log2_lt_10 b (by omega)
      have : (h % 1024 * 2 ^ (10 - (h % 1024).log2)) % 1024 < 1024 := Nat.mod_lt _ (by norm_num)
      omega
    · omega
  rw [widenFb_eq h1]
  constructor
  · intro h3
    rw [Nat.div_eq_of_lt h3]
    omega
  · intro h3
    rw [show h / 32768 = 1 by omega]
    omega

example : dec32 (widenFb 0x8001) = -(1 / 2 ^ 24) := by
  rw [C125_widen_fallback ⟨by decide, by decide⟩]
  decide +kernel
example : dec32 (widenFb 0x3C01) = 1 + 1 / 2 ^ 10 := by
  rw [C125_widen_fallback ⟨by decide, by decide⟩]
  decide +kernel

/-! ### C126: narrowing without F16C -/

/-- **C126.** The code that narrows singles on CPUs without F16C gives, for every single from 0 up to (not including)
65520, a finite half that is nearest to it: no half is closer. Of two halves at the same distance it takes the larger. -/
theorem C126_narrow_fallback {b : ℕ} (hb : b < 0x477FF000) :
    0 ≤ dec32 b ∧ dec32 b < 65520 ∧ narrowFb b < 0x7C00 ∧
    (∀ h, h < 0x8000 → |dec (narrowFb b) - dec32 b| ≤ |dec h - dec32 b|) ∧
    ∀ h, h < 0x8000 → |dec h - dec32 b| = |dec (narrowFb b) - dec32 b| → h ≤ narrowFb b := by
  obtain ⟨h1, h2⟩ := narrowFb_between hb
  refine ⟨dec32_nonneg (by omega), ?_, h1, fun h hh => nearest_of_between (by omega) h2 h hh, fun h hh he => ?_⟩
  · have := dec32_lt hb (by norm_num)
    rw [dec32_lin (b := 0x477FF000) (e := 142) (by omega) (by omega) (by omega) (by omega)] at this
    norm_num at this
    exact this
  · by_contra hc
    push Not at hc
    have m1 : dec (narrowFb b + 1) ≤ dec h := dec_mono hc hh
    have m2 : dec (narrowFb b) < dec (narrowFb b + 1) := dec_succ_lt (by omega)
    have h3 := h2.2
    have h4 : |dec h - dec32 b| = dec h - dec32 b := abs_of_nonneg (by linarith)
    rw [h4] at he
    rcases abs_cases (dec (narrowFb b) - dec32 b) with ⟨a, _⟩ | ⟨a, _⟩ <;> rw [a] at he <;> linarith

/-- Narrowing undoes widening, for every finite half that is not negative. -/
theorem C126_round_trip {h : ℕ} (hh : h < 0x7C00) : narrowFb (widenFb h) = h := narrowFb_widenFb hh

/-- It is the IEEE conversion except for singles exactly between two halves. -/
theorem C126_narrow_ieee {b : ℕ} (hb : b < 0x477FF000) (ht : ∀ h, h < 0x7C00 → 2 * dec32 b ≠ dec h + dec (h + 1)) :
    narrowFb b = enc (dec32 b) := by
  obtain ⟨h1, h2⟩ := narrowFb_between hb
  obtain ⟨p0, p1, _, p3, _⟩ := C126_narrow_fallback hb
  have hlt : |dec32 b| < 65520 := by rwa [abs_of_nonneg p0]
  obtain ⟨m, m1, _, m3, m4⟩ := enc_cases hlt
  rw [abs_of_nonneg p0] at m4
  rcases m3 with ⟨e, _⟩ | ⟨_, h⟩
  · rw [e]
    by_contra hne
    have ha := le_antisymm (p3 m (by omega)) (m4 (narrowFb b) (by omega))
    have lt_of : ∀ {a c : ℕ}, a < c → c < 32768 → dec a < dec c := fun {a c} hac hc =>
      lt_of_lt_of_le (dec_succ_lt (by omega)) (dec_mono hac hc)
    -- the smaller and the larger of the two
    have key : ∀ a c, a < c → c < 0x7C00 → |dec a - dec32 b| = |dec c - dec32 b| →
        (∀ h, h < 0x8000 → |dec a - dec32 b| ≤ |dec h - dec32 b|) → False := by
      intro a c hac hc heq hnear
      have d1 := lt_of hac (by omega)
      have hmid : 2 * dec32 b = dec a + dec c := by
        rcases abs_cases (dec a - dec32 b) with ⟨x1, _⟩ | ⟨x1, _⟩ <;>
          rcases abs_cases (dec c - dec32 b) with ⟨x2, _⟩ | ⟨x2, _⟩ <;> rw [x1, x2] at heq <;> linarith
      rcases Nat.eq_or_lt_of_le hac with hs | hs
      · have hs' : c = a + 1 := by omega
        rw [hs'] at hmid
        exact ht a (by omega) hmid
      · have d2 := lt_of (Nat.lt_succ_self a) (show a + 1 < 32768 by omega)
        have d3 := lt_of hs (show c < 32768 by omega)
        have n1 := hnear (a + 1) (by omega)
        have x1 : |dec a - dec32 b| = dec32 b - dec a := by
          rw [abs_sub_comm]; exact abs_of_nonneg (by linarith)
        rw [x1] at n1
        have d2' : dec a < dec (a + 1) := d2
        have d3' : dec (a + 1) < dec c := d3
        rcases abs_cases (dec (a + 1) - dec32 b) with ⟨x2, _⟩ | ⟨x2, _⟩ <;> rw [x2] at n1 <;> linarith
    rcases Nat.lt_or_gt_of_ne hne with hc | hc
    · exact key _ _ hc (by omega) ha p3
    · exact key _ _ hc (by omega) ha.symm m4
  · linarith

/-- Half-way cases go up: `1 + 2^-11` becomes `1 + 2^-10` (IEEE: 1). -/
example : narrowFb 0x3F801000 = 0x3C01 ∧ enc (dec32 0x3F801000) = 0x3C00 := by decide +kernel
example : narrowFb 0x33000001 = 1 ∧ narrowFb 0x477FEFFF = 0x7BFF := by decide +kernel
example : narrowFb 0x3F800FFF = enc (dec32 0x3F800FFF) := by decide +kernel

/-! ### C127: signs, overflow and infinities -/

/-- **C127 (partial).** With the IEEE conversions (F16C, or no SSE4.1): what is too large becomes an infinity of its
sign, and what is not becomes a finite half of the same sign that is nearest. -/
theorem C127_narrow_ieee_partial (v : ℚ) :
    (65520 ≤ v → enc v = 0x7C00) ∧ (v ≤ -65520 → enc v = 0xFC00) ∧
    (|v| < 65520 → FiniteHalf (enc v) ∧ (0 ≤ v → 0 ≤ dec (enc v)) ∧ (v ≤ 0 → dec (enc v) ≤ 0) ∧
      ∀ h, h < 0x10000 → |dec (enc v) - v| ≤ |dec h - v|) := by
  have big : ∀ a : ℚ, 65520 ≤ a → 0x7C00 ≤ (qexp16 a + 24).toNat * 1024 + (F32.rhe (a / F32.pow2 (qexp16 a))).toNat := by
    intro a ha
    have hp : 0 < a := by linarith
    obtain ⟨l1, l2⟩ := F32.ilog2_spec hp
    have hE : qexp16 a = max (F32.ilog2 a - 10) (-24) := by unfold qexp16; rw [abs_of_pos hp]
    have hl : 15 ≤ F32.ilog2 a := by
      by_contra hc
      have : (2 : ℚ) ^ (F32.ilog2 a + 1) ≤ 2 ^ (15 : ℤ) := zpow_le_zpow_right₀ (by norm_num) (by omega)
      norm_num at this
      linarith
    generalize F32.ilog2 a = l at *
    have hE' : qexp16 a = l - 10 := by omega
    rw [hE', F32.pow2_eq]
    have hpos : (0 : ℚ) < (2 : ℚ) ^ (l - 10) := by positivity
    rcases eq_or_lt_of_le hl with h15 | h15
    · have h1 : (2048 : ℤ) ≤ F32.rhe (a / 2 ^ (l - 10)) := by
        have e : F32.rhe (4095 / 2) = 2048 := by decide +kernel
        rw [← e]
        apply F32.rhe_mono
        rw [← h15, le_div_iff₀ (by positivity)]
        norm_num
        linarith
      rw [← h15] at h1 ⊢
      omega
    · have h1 : (1024 : ℤ) ≤ F32.rhe (a / 2 ^ (l - 10)) := by
        apply rhe_ge
        rw [le_div_iff₀ hpos]
        refine le_trans (le_of_eq ?_) l1
        rw [show (2 : ℚ) ^ l = 2 ^ (l - 10) * 2 ^ (10 : ℤ) by rw [← zpow_add₀ (by norm_num)]; congr 1; ring]
        push_cast
        norm_num
        ring
      omega
  refine ⟨fun h => ?_, fun h => ?_, fun h => ?_⟩
  · have := big v h
    unfold enc
    rw [abs_of_nonneg (by linarith : 0 ≤ v), if_neg (by linarith : ¬ v = 0), if_neg (by
      rintro ⟨h', _⟩
      linarith)]
    omega
  · have hq : qexp16 (-v) = qexp16 v := by unfold qexp16; rw [abs_neg]
    have := big (-v) (by linarith)
    rw [hq] at this
    unfold enc
    have hv : v < 0 := by linarith
    rw [abs_of_neg hv, if_neg hv.ne]
    rw [Nat.min_eq_left this, if_pos ⟨hv, by norm_num⟩]
  · obtain ⟨a1, a2, _⟩ := enc_near h
    obtain ⟨m, m1, _, m3, _⟩ := enc_cases h
    refine ⟨⟨a2, a1⟩, fun hv => ?_, fun hv => ?_, fun h' hh => enc_nearest h hh⟩
    · rcases m3 with ⟨e, _⟩ | ⟨_, h'⟩
      · rw [e]; exact dec_nonneg (by omega)
      · linarith
    · rcases m3 with ⟨e, hz⟩ | ⟨e, _⟩
      · rw [e]
        rcases hz with hz | hz
        · have : v = 0 := le_antisymm hv hz
          subst this
          have e0 : enc 0 = 0 := by simp [enc]
          rw [e0] at e
          rw [← e, dec_zero]
        · rw [hz, dec_zero]
      · rw [e, dec_neg (by omega)]
        have := dec_nonneg (show m < 32768 by omega)
        linarith

/-- The fallback drops the sign of every single. -/
theorem C127_sign_dropped {b : ℕ} (hb : b < 0x7FFFF000) : narrowFb (0x80000000 + b) = narrowFb b := narrowFb_sign hb

/-- The fallback turns every number from 65568 up, and infinity, into a NaN. -/
theorem C127_overflow_nan {b : ℕ} (h1 : 0x47801000 ≤ b) (h2 : b ≤ 0x7F800000) : 0x7C00 < narrowFb b ∧ narrowFb b < 0x8000 :=
  ⟨narrowFb_overflow h1 (by omega), narrowFb_unsigned b⟩

/-- The fallback widens infinity to 65536. -/
theorem C127_infinity_widened : dec32 (widenFb 0x7C00) = 65536 ∧ dec32 (widenFb 0xFC00) = -65536 := by decide +kernel

/-- So on a CPU with SSE4.1 and no F16C, no resize of f16 images that ends in a vectorised pass produces a negative
sample, whatever the source. -/
theorem C127_never_negative {W N : ℕ} {L : Lib} {r : ResamplingFunction} {store into : Image ℕ}
    (h : AcceptedF W N r store into) (cpu : HalfCpu) (h1 : cpu.sse41 = true) (h2 : cpu.f16c = false)
    (hlast : store.width = into.width ∨ 3 ≤ N) :
    ∃ out, genericResize W N (formatF16 cpu halfBits N) L r store into = some (.ok (), out) ∧
      ∀ y x c, y < into.height → x < into.width → c < N →
        ∃ v, sample out.buffer (into.strideOf N) N y x c = some v ∧ v < 0x8000 := by
  obtain ⟨vf, hf, out, ev, eh, Tv, Th, o1, o4⟩ := C122_f16_value (L := L) h cpu halfBits rfl
  refine ⟨out, o1, fun y x c hy hx hc => ⟨_, o4 y x c hy hx hc, ?_⟩⟩
  have e1 : vIeee cpu = false := by unfold vIeee; rw [h1, h2]; rfl
  unfold separable
  dsimp only
  by_cases hw : store.width = into.width
  · have hne : store.height ≠ into.height := by have := h.sizes; tauto
    rw [if_pos hw, if_neg hne, e1]
    exact narrowFb_unsigned _
  · have e2 : hIeee cpu N = false := by
      unfold hIeee
      rw [h1, h2]
      have : ¬ N ≤ 2 := by rcases hlast with h' | h'; exact absurd h' hw; omega
      simp [this]
    rw [if_neg hw, e2]
    exact narrowFb_unsigned _

/-- A picture of all -1. -/
def Demo.minus (N w h : ℕ) : Image ℕ := { Demo.hx N w h with buffer := List.replicate ((N * w + 1) * h) 0xBC00 }
theorem Demo.minusCall : AcceptedF (2 ^ 64) 4 .bilinear (Demo.minus 4 6 5) (Demo.hz 4 2 3) := by
  constructor <;> decide +kernel

/-- The same picture of -1 becomes a picture of +1 on one CPU, and stays -1 on another. -/
theorem C127_violated : (∃ out, genericResize (2 ^ 64) 4 (formatF16 ⟨true, false, false, false, false⟩ halfBits 4) demoLib
      .bilinear (Demo.minus 4 6 5) (Demo.hz 4 2 3) = some (.ok (), out) ∧ sample out.buffer 10 4 1 1 0 = some 0x3C00) ∧
    ∃ out, genericResize (2 ^ 64) 4 (formatF16 ⟨true, false, true, false, false⟩ halfBits 4) demoLib
      .bilinear (Demo.minus 4 6 5) (Demo.hz 4 2 3) = some (.ok (), out) ∧ sample out.buffer 10 4 1 1 0 = some 0xBC00 := by
  have key : ∀ cpu v, ((genericResize (2 ^ 64) 4 (formatF16 cpu halfBits 4) demoLib .bilinear (Demo.minus 4 6 5)
      (Demo.hz 4 2 3)).map fun o => sample o.2.buffer 10 4 1 1 0) = some (some v) →
      ∃ out, genericResize (2 ^ 64) 4 (formatF16 cpu halfBits 4) demoLib
      .bilinear (Demo.minus 4 6 5) (Demo.hz 4 2 3) = some (.ok (), out) ∧ sample out.buffer 10 4 1 1 0 = some v := by
    intro cpu v hv
    obtain ⟨out, o1, _⟩ := C119_f16_no_oob (L := demoLib) Demo.minusCall cpu halfBits
    rw [o1] at hv
    exact ⟨out, o1, Option.some.inj hv⟩
  exact ⟨key _ _ (by decide +kernel), key _ _ (by decide +kernel)⟩

example : ∃ out, genericResize (2 ^ 64) 4 (formatF16 ⟨true, false, false, false, false⟩ halfBits 4) demoLib .bilinear
    (Demo.minus 4 6 5) (Demo.hz 4 2 3) = some (.ok (), out) ∧ ∀ y x c, y < 3 → x < 2 → c < 4 →
      ∃ v, sample out.buffer 10 4 y x c = some v ∧ v < 0x8000 :=
  C127_never_negative Demo.minusCall _ rfl rfl (by decide)

end PicScale
