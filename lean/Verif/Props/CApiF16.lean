import Verif.Model.CApiF16
import Verif.Props.CApi
import Verif.Props.AlphaF16Resize
import Verif.Props.NeonAlphaF16Resize
import Verif.Props.AlphaX86U16Resize
import Verif.Props.NeonAlphaU16Resize
import Verif.Props.X86F32
import Verif.Props.Neon

/-!
C253, C254: the C interface on f16 samples.
-/

namespace PicScale

open F16 Spec

theorem cScaleWith_eq {S : Type} {W N : ℕ} {F : ℕ → Format S} {A : AlphaOps S} {L : Lib} {f : CFilter} {flags : ℕ}
    {store into : Image S} : cScaleWith W N F A L f flags store into =
      rustCallWith W N F A L (filterMeaning f) (decide (flags % 2 = 1)) store into := by
  unfold cScaleWith rustCallWith
  rw [show f.toResampling = filterMeaning f by cases f <;> rfl]
  have hf : (flags &&& PIC_SCALE_PREMULTIPLY_ALPHA ≠ 0) = (flags % 2 = 1) := by
    rw [PIC_SCALE_PREMULTIPLY_ALPHA, Nat.and_one_is_mod]
    exact propext (by omega)
  simp only [hf]

/-- An aligned C call, given what the Rust call does. -/
theorem cResize_of_rust {S : Type} {R : MemRepr S} (hR : R.Sized) {N : ℕ}
    {scale : Image S → Image S → Option (Except Err Unit × Image S)} {src dst : Ptr} {sb db : List S} {sr dr : List ℕ}
    {ss ds w h nw nh depth : ℕ} (as : src.addr % R.align = 0) (ad : dst.addr % R.align = 0)
    (ms : src.mem = sb.flatMap R.enc ++ sr) (md : dst.mem = db.flatMap R.enc ++ dr)
    (ls : sb.length = ss * h) (ld : db.length = ds * nh)
    (es : ∀ a ∈ sb, R.dec (R.enc a) = a) (ed : ∀ a ∈ db, R.dec (R.enc a) = a) {r : Except Err Unit} {out : Image S}
    (hs : scale ⟨sb, N, w, h, ss, depth⟩ ⟨db, N, nw, nh, ds, depth⟩ = some (r, out))
    (hl : out.buffer.length = db.length) :
    cResize R N scale src (ss * R.size) w h dst (ds * R.size) nw nh depth =
      some (mapErrorCode r, out.buffer.flatMap R.enc ++ dr) := by
  unfold cResize
  rw [cSource_aligned hR.pos hR.len as ms ls es]
  simp only [Option.bind_eq_bind, Option.bind_some]
  rw [if_neg (by rw [Nat.mul_mod_left]; simp), Nat.mul_div_cancel _ hR.pos, Nat.mul_comm nh ds, ← ld,
    fromRawParts_enc hR.len ad md ed]
  simp only [Option.bind_some]
  rw [hs]
  simp only [Option.bind_some]
  rw [md, writeAt?_zero (by rw [flatMap_enc_length hR.len, flatMap_enc_length hR.len, hl])]
  rfl

theorem u16_back (v : ℕ) : reprU16.dec (reprU16.enc v) = v := by
  simp only [reprU16, List.getD_cons_zero, List.getD_cons_succ]
  omega

/-- The call ends: with a result or an error, and with as many destination samples as before (on an error: the same). -/
def Ends {S : Type} (r : Option (Except Err Unit × Image S)) (into : Image S) : Prop :=
  ∃ res out, r = some (res, out) ∧ out.buffer.length = into.buffer.length ∧ ∀ e, res = .error e → out = into

theorem Ends.ok {S : Type} {r : Option (Except Err Unit × Image S)} {into out : Image S} (h : r = some (.ok (), out))
    (hs : SameShape out into) : Ends r into := by
  obtain ⟨_, _, _, _, _, hl⟩ := hs
  exact ⟨_, out, h, hl, fun e h => by cases h⟩

theorem Ends.nearest {S : Type} {W N : ℕ} {store into : Image S} {b : Bool} (hN : 1 ≤ N)
    (hc : checkResize W N b store into = .ok ()) (small : store.width ≤ 2 ^ 23 ∧ store.height ≤ 2 ^ 23) :
    Ends ((resizeByNearest N store into).bind fun d => some (.ok (), d)) into := by
  obtain ⟨c1, c2, c3, _⟩ := checkResize_ok.1 hc
  obtain ⟨s1, s2, _⟩ := validate_ok c2
  obtain ⟨b, b1, b2⟩ := C09_no_oob_partial N store.width store.height into.width into.height
    store.buffer into.buffer hN ⟨c3.1, by omega⟩ ⟨c3.2.1, by omega⟩ c3.2.2.1 (by
      rw [s1]
      calc store.width * store.height * N = store.height * (store.width * N) := by ring
        _ ≤ _ := Nat.mul_le_mul_left _ s2)
  refine ⟨.ok (), { into with buffer := b }, ?_, b2, fun e h => by cases h⟩
  unfold resizeByNearest
  rw [b1]; rfl

/-- An accepted resize. -/
structure AcceptedBD {S : Type} (W N : ℕ) (b : Bool) (r : ResamplingFunction) (store into : Image S) : Prop where
  channels : 1 ≤ N ∧ N ≤ 4
  checked : checkResize W N b store into = .ok ()
  filter : r ≠ .nearest
  sizes : store.width ≠ into.width ∨ store.height ≠ into.height
  small : store.width ≤ 2 ^ 23 ∧ store.height ≤ 2 ^ 23
  area : r = .area → into.width ≤ 2 ^ 22 ∧ into.height ≤ 2 ^ 22
  fits : store.width * into.height * N < W

theorem AcceptedBD.f {S : Type} {W N : ℕ} {r : ResamplingFunction} {store into : Image S} (h : AcceptedBD W N false r store into) :
    AcceptedF W N r store into := ⟨h.channels, h.checked, h.filter, h.sizes, h.small, h.area, h.fits⟩
theorem AcceptedBD.u8 {W N : ℕ} {r : ResamplingFunction} {store into : Image ℕ} (h : AcceptedBD W N false r store into) :
    AcceptedCall W N r store into := ⟨h.channels, h.checked, h.filter, h.sizes, h.small, h.area, h.fits⟩
theorem AcceptedBD.u16 {W N : ℕ} {r : ResamplingFunction} {store into : Image ℕ} (h : AcceptedBD W N true r store into) :
    AcceptedCall16 W N r store into := ⟨h.channels, h.checked, h.filter, h.sizes, h.small, h.area, h.fits⟩

/-- Calls of a format whose accepted resizes (plain and with premultiplied alpha) succeed with the destination's
shape: all of them end normally and keep the number of samples. -/
theorem rustCallWith_ends {S : Type} {W N : ℕ} {F : ℕ → Format S} {A : AlphaOps S} {L : Lib} {r : ResamplingFunction} {p b : Bool}
    {store into : Image S} (hb : (F N).shouldHaveBitDepth = b) (hN : 1 ≤ N ∧ N ≤ 4)
    (small : store.width ≤ 2 ^ 23 ∧ store.height ≤ 2 ^ 23)
    (area : r = .area → into.width ≤ 2 ^ 22 ∧ into.height ≤ 2 ^ 22) (fits : store.width * into.height * N < W)
    (plain : AcceptedBD W N b r store into → ∃ out, genericResize W N (F N) L r store into = some (.ok (), out) ∧ SameShape out into)
    (alpha : N = 4 → p = true → AcceptedBD W 4 b r store into → ∃ out,
      genericResizeWithAlpha W 4 (F 4) A L r store into true = some (.ok (), out) ∧ SameShape out into) :
    Ends (rustCallWith W N F A L r p store into) into := by
  cases hc : checkResize W N b store into with
  | error e =>
    refine ⟨.error e, into, ?_, rfl, fun _ _ => rfl⟩
    unfold rustCallWith
    split_ifs with h4
    · subst h4; unfold genericResizeWithAlpha; rw [hb, hc]
    · unfold genericResize; rw [hb, hc]
  | ok u =>
    obtain ⟨c1, c2, c3, _⟩ := checkResize_ok.1 hc
    by_cases hs : store.width = into.width ∧ store.height = into.height
    · obtain ⟨out, o1, o2, _⟩ := copiedToMut_spec hN.1 c2 c1 hs.1 hs.2 c3.2.2.1
      refine Ends.ok (out := out) ?_ o2
      unfold rustCallWith
      split_ifs with h4
      · subst h4; unfold genericResizeWithAlpha; rw [hb, hc]; simp only [if_pos hs]; rw [o1]; rfl
      · unfold genericResize; rw [hb, hc]; simp only [if_pos hs]; rw [o1]; rfl
    · by_cases hn : r = .nearest
      · unfold rustCallWith
        split_ifs with h4
        · subst h4; unfold genericResizeWithAlpha; rw [hb, hc]; simp only [if_neg hs, if_pos hn]
          exact Ends.nearest (by norm_num) hc small
        · unfold genericResize; rw [hb, hc]; simp only [if_neg hs, if_pos hn]
          exact Ends.nearest hN.1 hc small
      · have ha : AcceptedBD W N b r store into := ⟨hN, hc, hn, by tauto, small, area, fits⟩
        unfold rustCallWith
        split_ifs with h4
        · subst h4
          cases p with
          | true => obtain ⟨out, o1, o2⟩ := alpha rfl rfl ha; exact Ends.ok o1 o2
          | false => obtain ⟨out, o1, o2⟩ := plain ha; exact Ends.ok (withAlpha_false.trans o1) o2
        · obtain ⟨out, o1, o2⟩ := plain ha; exact Ends.ok o1 o2

theorem likeRust_of_ends {S : Type} {R : MemRepr S} (hR : R.Sized) {W N : ℕ} {F : ℕ → Format S} {A : AlphaOps S} {L : Lib}
    {f : CFilter} {flags : ℕ} {src dst : Ptr} {sb db : List S} {sr dr : List ℕ}
    {ss ds w h nw nh depth : ℕ} (as : src.addr % R.align = 0) (ad : dst.addr % R.align = 0)
    (ms : src.mem = sb.flatMap R.enc ++ sr) (md : dst.mem = db.flatMap R.enc ++ dr)
    (ls : sb.length = ss * h) (ld : db.length = ds * nh)
    (es : ∀ a ∈ sb, R.dec (R.enc a) = a) (ed : ∀ a ∈ db, R.dec (R.enc a) = a)
    (he : Ends (rustCallWith W N F A L (filterMeaning f) (decide (flags % 2 = 1)) ⟨sb, N, w, h, ss, depth⟩ ⟨db, N, nw, nh, ds, depth⟩)
      ⟨db, N, nw, nh, ds, depth⟩) :
    LikeRust R (cResize R N (cScaleWith W N F A L f flags) src (ss * R.size) w h dst (ds * R.size) nw nh depth)
      (rustCallWith W N F A L (filterMeaning f) (decide (flags % 2 = 1)) ⟨sb, N, w, h, ss, depth⟩ ⟨db, N, nw, nh, ds, depth⟩)
      dst.mem dr := by
  obtain ⟨res, out, h1, h2, h3⟩ := he
  refine ⟨res, out, h1, cResize_of_rust hR as ad ms md ls ld es ed (cScaleWith_eq.trans h1) h2, fun hne => ?_⟩
  cases res with
  | ok u => exact absurd rfl hne
  | error e => rw [h3 e rfl, md]

theorem cFilter_area {f : CFilter} : filterMeaning f ≠ .area := by cases f <;> simp [filterMeaning]

/-- **C253.** The C functions on f16 samples on every x86 CPU: a call whose pointers are aligned and whose strides are
whole numbers of samples does what the Rust call does, whatever the samples and flags. -/
theorem C253_c_f16_x86 {W N : ℕ} (hN : 1 ≤ N ∧ N ≤ 4) (cpu : HalfCpu) {L : Lib} {f : CFilter} {flags : ℕ}
    {src dst : Ptr} {sb db : List ℕ} {sr dr : List ℕ} {ss ds w h nw nh : ℕ}
    (as : src.addr % 2 = 0) (ad : dst.addr % 2 = 0)
    (ms : src.mem = sb.flatMap reprU16.enc ++ sr) (md : dst.mem = db.flatMap reprU16.enc ++ dr)
    (ls : sb.length = ss * h) (ld : db.length = ds * nh)
    (small : w ≤ 2 ^ 23 ∧ h ≤ 2 ^ 23) (fits : w * nh * N < W) :
    LikeRust reprU16
      (picScaleResizeF16 W N (formatF16 cpu halfBits) (alphaF16 cpu halfBits) L src (ss * 2) w h dst (ds * 2) nw nh f flags)
      (rustCallWith W N (formatF16 cpu halfBits) (alphaF16 cpu halfBits) L (filterMeaning f) (decide (flags % 2 = 1))
        ⟨sb, N, w, h, ss, 16⟩ ⟨db, N, nw, nh, ds, 16⟩) dst.mem dr :=
  likeRust_of_ends sizedU16 as ad ms md ls ld (fun v _ => u16_back v) (fun v _ => u16_back v)
    (rustCallWith_ends rfl hN small (fun ha => absurd ha cFilter_area) fits
      (fun ha => C119_f16_no_oob ha.f cpu halfBits)
      (fun h4 _ ha => by
        subst h4
        obtain ⟨_, _, out, _, _, o1, o2, _⟩ := C132_alpha_pipeline_f16 (L := L) ha.f rfl cpu
        exact ⟨out, o1, o2⟩))

/-- **C253** on every aarch64 CPU (`Scaler::new` picks the workload `PreferSpeed`). -/
theorem C253_c_f16_neon {W N : ℕ} (hN : 1 ≤ N ∧ N ≤ 4) (cpu : NeonHalfCpu) (st : Workload) {L : Lib} {f : CFilter} {flags : ℕ}
    {src dst : Ptr} {sb db : List ℕ} {sr dr : List ℕ} {ss ds w h nw nh : ℕ}
    (as : src.addr % 2 = 0) (ad : dst.addr % 2 = 0)
    (ms : src.mem = sb.flatMap reprU16.enc ++ sr) (md : dst.mem = db.flatMap reprU16.enc ++ dr)
    (ls : sb.length = ss * h) (ld : db.length = ds * nh)
    (small : w ≤ 2 ^ 23 ∧ h ≤ 2 ^ 23) (fits : w * nh * N < W) :
    LikeRust reprU16
      (picScaleResizeF16 W N (formatF16Neon cpu st halfBits halfVec) (alphaNeonF16 cpu.fp16 halfBits) L src (ss * 2) w h
        dst (ds * 2) nw nh f flags)
      (rustCallWith W N (formatF16Neon cpu st halfBits halfVec) (alphaNeonF16 cpu.fp16 halfBits) L (filterMeaning f)
        (decide (flags % 2 = 1)) ⟨sb, N, w, h, ss, 16⟩ ⟨db, N, nw, nh, ds, 16⟩) dst.mem dr :=
  likeRust_of_ends sizedU16 as ad ms md ls ld (fun v _ => u16_back v) (fun v _ => u16_back v)
    (rustCallWith_ends rfl hN small (fun ha => absurd ha cFilter_area) fits
      (fun ha => C233_neon_f16_no_oob ha.f cpu st halfBits halfVec)
      (fun h4 _ ha => by
        subst h4
        obtain ⟨_, _, out, _, _, o1, o2, _⟩ := C245_alpha_pipeline_neon_f16 (L := L) ha.f rfl cpu st
        exact ⟨out, o1, o2⟩))


namespace Demo
/-- Two planar f16 samples, 1 and -2, and a byte of padding behind the row. -/
def halfSrc : Ptr := ⟨64, [0, 0x3C, 0, 0xC0, 77]⟩
/-- Room for three samples and three more bytes. -/
def halfDst : Ptr := ⟨128, [9, 9, 9, 9, 9, 9, 5, 6, 7]⟩
end Demo

/-- The theorem applied to an enlargement of two samples to three. -/
example (cpu : HalfCpu) : LikeRust reprU16
    (picScaleResizeF16 (2 ^ 64) 1 (formatF16 cpu halfBits) (alphaF16 cpu halfBits) demoLib Demo.halfSrc (2 * 2) 2 1 Demo.halfDst
      (3 * 2) 3 1 .bilinear 0)
    (rustCallWith (2 ^ 64) 1 (formatF16 cpu halfBits) (alphaF16 cpu halfBits) demoLib .bilinear false
      ⟨[0x3C00, 0xC000], 1, 2, 1, 2, 16⟩ ⟨[0x909, 0x909, 0x909], 1, 3, 1, 3, 16⟩) Demo.halfDst.mem [5, 6, 7] :=
  C253_c_f16_x86 (sr := [77]) (by norm_num) cpu (f := .bilinear) (flags := 0) (by decide) (by decide) (by decide +kernel)
    (by decide +kernel) rfl rfl (by norm_num) (by norm_num)

/-- Its values, without SIMD: 1, -1/2, -2. -/
example : picScaleResizeF16 (2 ^ 64) 1 (formatF16 ⟨false, false, false, false, false⟩ halfBits)
    (alphaF16 ⟨false, false, false, false, false⟩ halfBits) demoLib Demo.halfSrc 4 2 1 Demo.halfDst 6 3 1 .bilinear 0 =
    some (0, [0, 0x3C, 0, 0xB8, 0, 0xC0, 5, 6, 7]) := by
  decide +kernel

example (cpu : NeonHalfCpu) : LikeRust reprU16
    (picScaleResizeF16 (2 ^ 64) 1 (formatF16Neon cpu .preferSpeed halfBits halfVec) (alphaNeonF16 cpu.fp16 halfBits) demoLib
      Demo.halfSrc (2 * 2) 2 1 Demo.halfDst (3 * 2) 3 1 .bilinear 0)
    (rustCallWith (2 ^ 64) 1 (formatF16Neon cpu .preferSpeed halfBits halfVec) (alphaNeonF16 cpu.fp16 halfBits) demoLib .bilinear
      false ⟨[0x3C00, 0xC000], 1, 2, 1, 2, 16⟩ ⟨[0x909, 0x909, 0x909], 1, 3, 1, 3, 16⟩) Demo.halfDst.mem [5, 6, 7] :=
  C253_c_f16_neon (sr := [77]) (by norm_num) cpu .preferSpeed (f := .bilinear) (flags := 0) (by decide) (by decide)
    (by decide +kernel) (by decide +kernel) rfl rfl (by norm_num) (by norm_num)

/-! ### C254: the C functions on vector processors, without premultiplication -/

section Plain
variable {S : Type} {R : MemRepr S} {W N : ℕ} {L : Lib} {f : CFilter} {flags : ℕ} {src dst : Ptr} {sb db : List S}
  {sr dr : List ℕ} {ss ds w h nw nh depth : ℕ}

theorem c_plain (hR : R.Sized) {F : ℕ → Format S} {A : AlphaOps S} {b : Bool} (hb : (F N).shouldHaveBitDepth = b)
    (hN : 1 ≤ N ∧ N ≤ 4) (hp : N = 4 → flags % 2 = 0)
    (as : src.addr % R.align = 0) (ad : dst.addr % R.align = 0)
    (ms : src.mem = sb.flatMap R.enc ++ sr) (md : dst.mem = db.flatMap R.enc ++ dr)
    (ls : sb.length = ss * h) (ld : db.length = ds * nh)
    (es : ∀ a ∈ sb, R.dec (R.enc a) = a) (ed : ∀ a ∈ db, R.dec (R.enc a) = a)
    (small : w ≤ 2 ^ 23 ∧ h ≤ 2 ^ 23) (fits : w * nh * N < W)
    (plain : AcceptedBD W N b (filterMeaning f) ⟨sb, N, w, h, ss, depth⟩ ⟨db, N, nw, nh, ds, depth⟩ →
      ∃ out, genericResize W N (F N) L (filterMeaning f) ⟨sb, N, w, h, ss, depth⟩ ⟨db, N, nw, nh, ds, depth⟩ = some (.ok (), out) ∧
        SameShape out ⟨db, N, nw, nh, ds, depth⟩) :
    LikeRust R (picScaleResizeWith R W N F A L src (ss * R.size) w h dst (ds * R.size) nw nh depth f flags)
      (rustCallWith W N F A L (filterMeaning f) (decide (flags % 2 = 1)) ⟨sb, N, w, h, ss, depth⟩ ⟨db, N, nw, nh, ds, depth⟩)
      dst.mem dr :=
  likeRust_of_ends hR as ad ms md ls ld es ed
    (rustCallWith_ends hb hN small (fun ha => absurd ha cFilter_area) fits plain
      (fun h4 hp' _ => by have := hp h4; simp only [decide_eq_true_eq] at hp'; omega))

end Plain

section Bytes
variable {W N : ℕ} {L : Lib} {f : CFilter} {flags : ℕ} {src dst : Ptr} {sb db : List ℕ}
  {sr dr : List ℕ} {ss ds w h nw nh depth : ℕ}

/-- **C254 (partial).** The C functions on 8-bit samples on every x86 CPU do what the Rust call does (aligned or not: bytes
always are), for RGBA without premultiplication, and where the CPU has the instructions of the kernels the library picks
(`CpuFits`, see C57). -/
theorem C254_c_u8_x86_partial (hN : 1 ≤ N ∧ N ≤ 4) (cpu : Cpu) (A : AlphaOps ℕ) (hp : N = 4 → flags % 2 = 0)
    (ms : src.mem = sb ++ sr) (md : dst.mem = db ++ dr) (ls : sb.length = ss * h) (ld : db.length = ds * nh)
    (hc : CpuFits cpu .preferSpeed N ⟨sb, N, w, h, ss, 8⟩ ⟨db, N, nw, nh, ds, 8⟩)
    (small : w ≤ 2 ^ 23 ∧ h ≤ 2 ^ 23) (fits : w * nh * N < W) :
    LikeRust reprU8 (picScaleResizeWith reprU8 W N (formatX86 cpu .preferSpeed) A L src ss w h dst ds nw nh 8 f flags)
      (rustCallWith W N (formatX86 cpu .preferSpeed) A L (filterMeaning f) (decide (flags % 2 = 1))
        ⟨sb, N, w, h, ss, 8⟩ ⟨db, N, nw, nh, ds, 8⟩) dst.mem dr := by
  have e : ∀ l : List ℕ, l.flatMap reprU8.enc = l := fun l => by simp [reprU8]
  have := c_plain (F := formatX86 cpu .preferSpeed) (A := A) (L := L) (f := f) (depth := 8) sizedU8 rfl hN hp
    (Nat.mod_one _) (Nat.mod_one _) (by rw [e]; exact ms) (by rw [e]; exact md) ls ld (fun v _ => rfl) (fun v _ => rfl) small fits
    (fun ha => by
      obtain ⟨out, o1, o2, _⟩ := C52_no_oob (L := L) ha.u8 hc
      exact ⟨out, o1, o2⟩)
  rwa [show reprU8.size = 1 from rfl, Nat.mul_one, Nat.mul_one] at this

/-- **C254 (partial)** on every aarch64 CPU. -/
theorem C254_c_u8_neon_partial (hN : 1 ≤ N ∧ N ≤ 4) (rdm : Bool) (A : AlphaOps ℕ) (hp : N = 4 → flags % 2 = 0)
    (ms : src.mem = sb ++ sr) (md : dst.mem = db ++ dr) (ls : sb.length = ss * h) (ld : db.length = ds * nh)
    (small : w ≤ 2 ^ 23 ∧ h ≤ 2 ^ 23) (fits : w * nh * N < W) :
    LikeRust reprU8 (picScaleResizeWith reprU8 W N (formatNeon rdm .preferSpeed) A L src ss w h dst ds nw nh 8 f flags)
      (rustCallWith W N (formatNeon rdm .preferSpeed) A L (filterMeaning f) (decide (flags % 2 = 1))
        ⟨sb, N, w, h, ss, 8⟩ ⟨db, N, nw, nh, ds, 8⟩) dst.mem dr := by
  have e : ∀ l : List ℕ, l.flatMap reprU8.enc = l := fun l => by simp [reprU8]
  have := c_plain (F := formatNeon rdm .preferSpeed) (A := A) (L := L) (f := f) (depth := 8) (nw := nw) sizedU8 rfl hN hp
    (Nat.mod_one _) (Nat.mod_one _) (by rw [e]; exact ms) (by rw [e]; exact md) ls ld (fun v _ => rfl) (fun v _ => rfl) small fits
    (fun ha => by
      obtain ⟨out, o1, o2, _⟩ := C138_neon_no_oob (L := L) (rdm := rdm) (s := .preferSpeed) ha.u8
      exact ⟨out, o1, o2⟩)
  rwa [show reprU8.size = 1 from rfl, Nat.mul_one, Nat.mul_one] at this

/-- **C254.** The C functions on 16-bit samples on every x86 CPU with SSE4.1 or AVX2, at any depth and with any flags: an
aligned call does what the Rust call does. -/
theorem C254_c_u16_x86 (hN : 1 ≤ N ∧ N ≤ 4) (cpu : Cpu) (hcpu : cpu.avx2 = true ∨ cpu.sse41 = true) (fma fused : Bool)
    (rcp : ℚ → ℚ) (as : src.addr % 2 = 0) (ad : dst.addr % 2 = 0)
    (ms : src.mem = sb.flatMap reprU16.enc ++ sr) (md : dst.mem = db.flatMap reprU16.enc ++ dr)
    (ls : sb.length = ss * h) (ld : db.length = ds * nh) (hb : ∀ v ∈ sb, v ≤ 65535)
    (small : w ≤ 2 ^ 23 ∧ h ≤ 2 ^ 23) (fits : w * nh * N < W) :
    LikeRust reprU16
      (picScaleResizeWith reprU16 W N (formatU16X86 cpu fma fused) (alphaX86U16 cpu fma rcp) L src (ss * 2) w h dst (ds * 2)
        nw nh depth f flags)
      (rustCallWith W N (formatU16X86 cpu fma fused) (alphaX86U16 cpu fma rcp) L (filterMeaning f) (decide (flags % 2 = 1))
        ⟨sb, N, w, h, ss, depth⟩ ⟨db, N, nw, nh, ds, depth⟩) dst.mem dr :=
  likeRust_of_ends sizedU16 as ad ms md ls ld (fun v _ => u16_back v) (fun v _ => u16_back v)
    (rustCallWith_ends rfl hN small (fun ha => absurd ha cFilter_area) fits
      (fun ha => by
        obtain ⟨out, o1, o2, _⟩ := C76_u16_no_oob (L := L) ha.u16 cpu fma fused
        exact ⟨out, o1, o2⟩)
      (fun h4 _ ha => by
        subst h4
        obtain ⟨_, _, out, _, _, _, _, o1, o2, _⟩ := C135_alpha_pipeline_u16 (L := L) (fma := fma) (fused := fused) (rcp := rcp)
          hcpu ha.u16 rfl hb
        exact ⟨out, o1, o2⟩))

/-- **C254** for 16-bit samples on every aarch64 CPU. -/
theorem C254_c_u16_neon (hN : 1 ≤ N ∧ N ≤ 4) (half fp16 fp16' : Bool) (as : src.addr % 2 = 0) (ad : dst.addr % 2 = 0)
    (ms : src.mem = sb.flatMap reprU16.enc ++ sr) (md : dst.mem = db.flatMap reprU16.enc ++ dr)
    (ls : sb.length = ss * h) (ld : db.length = ds * nh) (hb : ∀ v ∈ sb, v ≤ 65535)
    (small : w ≤ 2 ^ 23 ∧ h ≤ 2 ^ 23) (fits : w * nh * N < W) :
    LikeRust reprU16
      (picScaleResizeWith reprU16 W N (formatU16Neon half) (alphaNeonU16 fp16 fp16') L src (ss * 2) w h dst (ds * 2)
        nw nh depth f flags)
      (rustCallWith W N (formatU16Neon half) (alphaNeonU16 fp16 fp16') L (filterMeaning f) (decide (flags % 2 = 1))
        ⟨sb, N, w, h, ss, depth⟩ ⟨db, N, nw, nh, ds, depth⟩) dst.mem dr :=
  likeRust_of_ends sizedU16 as ad ms md ls ld (fun v _ => u16_back v) (fun v _ => u16_back v)
    (rustCallWith_ends rfl hN small (fun ha => absurd ha cFilter_area) fits
      (fun ha => by
        obtain ⟨out, o1, o2, _⟩ := C178_u16_neon_no_oob (L := L) ha.u16 half
        exact ⟨out, o1, o2⟩)
      (fun h4 _ ha => by
        subst h4
        obtain ⟨_, _, out, _, _, _, _, o1, o2, _⟩ := C190_alpha_pipeline_neon16 (half := half) (fp16 := fp16) (fp16' := fp16')
          (L := L) ha.u16 rfl hb
        exact ⟨out, o1, o2⟩))

end Bytes

/-- Rows of 8-bit RGB: four pixels and two bytes of padding to two pixels and one byte, on the newest CPUs. -/
example : LikeRust reprU8
    (picScaleResizeWith reprU8 (2 ^ 64) 3 (formatX86 ⟨true, true⟩ .preferSpeed) (alphaX86U8 ⟨true, true⟩ id) demoLib
      ⟨3, List.replicate 28 80 ++ [1]⟩ 14 4 2 ⟨5, List.replicate 7 9 ++ [2, 3]⟩ 7 2 1 8 .lanczos3 1)
    (rustCallWith (2 ^ 64) 3 (formatX86 ⟨true, true⟩ .preferSpeed) (alphaX86U8 ⟨true, true⟩ id) demoLib .lanczos3 true
      ⟨List.replicate 28 80, 3, 4, 2, 14, 8⟩ ⟨List.replicate 7 9, 3, 2, 1, 7, 8⟩) (List.replicate 7 9 ++ [2, 3]) [2, 3] :=
  C254_c_u8_x86_partial (f := .lanczos3) (flags := 1) (by norm_num) _ _ (by norm_num) rfl rfl rfl rfl (Or.inl (by norm_num))
    (by norm_num) (by norm_num)

example : LikeRust reprU8
    (picScaleResizeWith reprU8 (2 ^ 64) 3 (formatNeon true .preferSpeed) alphaNeonU8 demoLib
      ⟨3, List.replicate 28 80 ++ [1]⟩ 14 4 2 ⟨5, List.replicate 7 9 ++ [2, 3]⟩ 7 2 1 8 .lanczos3 1)
    (rustCallWith (2 ^ 64) 3 (formatNeon true .preferSpeed) alphaNeonU8 demoLib .lanczos3 true
      ⟨List.replicate 28 80, 3, 4, 2, 14, 8⟩ ⟨List.replicate 7 9, 3, 2, 1, 7, 8⟩) (List.replicate 7 9 ++ [2, 3]) [2, 3] :=
  C254_c_u8_neon_partial (f := .lanczos3) (flags := 1) (by norm_num) _ _ (by norm_num) rfl rfl rfl rfl
    (by norm_num) (by norm_num)

namespace Demo
/-- A row of 34 RGBA16 pixels. -/
def wideSrc : List ℕ := (List.replicate 34 [1000, 20, 300, 512]).flatten
end Demo

example (rcp : ℚ → ℚ) : LikeRust reprU16
    (picScaleResizeWith reprU16 (2 ^ 64) 4 (formatU16X86 ⟨true, true⟩ true true) (alphaX86U16 ⟨true, true⟩ true rcp) demoLib
      ⟨64, Demo.wideSrc.flatMap reprU16.enc ++ [1]⟩ (136 * 2) 34 1 ⟨128, (List.replicate 68 9).flatMap reprU16.enc ++ [2, 3]⟩
      (68 * 2) 17 1 10 .lanczos3 1)
    (rustCallWith (2 ^ 64) 4 (formatU16X86 ⟨true, true⟩ true true) (alphaX86U16 ⟨true, true⟩ true rcp) demoLib .lanczos3 true
      ⟨Demo.wideSrc, 4, 34, 1, 136, 10⟩ ⟨List.replicate 68 9, 4, 17, 1, 68, 10⟩)
    ((List.replicate 68 9).flatMap reprU16.enc ++ [2, 3]) [2, 3] :=
  C254_c_u16_x86 (f := .lanczos3) (flags := 1) (by norm_num) _ (by decide) _ _ _ (by decide) (by decide) rfl rfl rfl rfl
    (by decide +kernel) (by norm_num) (by norm_num)

example : LikeRust reprU16
    (picScaleResizeWith reprU16 (2 ^ 64) 4 (formatU16Neon true) (alphaNeonU16 true false) demoLib
      ⟨64, Demo.wideSrc.flatMap reprU16.enc ++ [1]⟩ (136 * 2) 34 1 ⟨128, (List.replicate 68 9).flatMap reprU16.enc ++ [2, 3]⟩
      (68 * 2) 17 1 10 .lanczos3 1)
    (rustCallWith (2 ^ 64) 4 (formatU16Neon true) (alphaNeonU16 true false) demoLib .lanczos3 true
      ⟨Demo.wideSrc, 4, 34, 1, 136, 10⟩ ⟨List.replicate 68 9, 4, 17, 1, 68, 10⟩)
    ((List.replicate 68 9).flatMap reprU16.enc ++ [2, 3]) [2, 3] :=
  C254_c_u16_neon (f := .lanczos3) (flags := 1) (by norm_num) _ _ _ (by decide) (by decide) rfl rfl rfl rfl
    (by decide +kernel) (by norm_num) (by norm_num)

end PicScale
