import Verif.Model.Weights

/-!
`src/sampler.rs`: the filter enumeration, its numeric ids and the filter table; `src/math/*.rs`: the
kernel functions. Every floating point operation of a kernel is followed by the rounding `ρ`.

`sin`, `cos`, `exp`, `sqrt`, the first order Bessel quotient `j1(x)/x` and the Kaiser window (a loop
over `sqrt` and division until convergence, modelled in `Model/Kaiser.lean`) are arbitrary functions, fields of `Lib`.
-/

namespace PicScale

/-- `enum ResamplingFunction`, `src/sampler.rs:64-119`. -/
inductive ResamplingFunction where
  | bilinear
  | nearest
  | cubic
  | mitchellNetravalli
  | catmullRom
  | hermite
  | bSpline
  | hann
  | bicubic
  | hamming
  | hanning
  | ewaHanning
  | blackman
  | ewaBlackman
  | welch
  | quadric
  | ewaQuadric
  | gaussian
  | sphinx
  | bartlett
  | robidoux
  | ewaRobidoux
  | robidouxSharp
  | ewaRobidouxSharp
  | spline16
  | spline36
  | spline64
  | kaiser
  | bartlettHann
  | box
  | bohman
  | lanczos2
  | lanczos3
  | lanczos4
  | lanczos2Jinc
  | lanczos3Jinc
  | lanczos4Jinc
  | ewaLanczos3Jinc
  | ginseng
  | ewaGinseng
  | ewaLanczosSharp
  | ewaLanczos4Sharpest
  | ewaLanczosSoft
  | haasnSoft
  | lagrange2
  | lagrange3
  | lanczos6
  | lanczos6Jinc
  | area
  deriving DecidableEq, Repr

/-- `impl From<u32> for ResamplingFunction`, `src/sampler.rs:120-175`. -/
def ResamplingFunction.ofU32 : ℕ → ResamplingFunction
  | 0 => .bilinear
  | 1 => .nearest
  | 2 => .cubic
  | 3 => .mitchellNetravalli
  | 4 => .catmullRom
  | 5 => .hermite
  | 6 => .bSpline
  | 7 => .hann
  | 8 => .bicubic
  | 9 => .hamming
  | 10 => .hanning
  | 11 => .blackman
  | 12 => .welch
  | 13 => .quadric
  | 14 => .gaussian
  | 15 => .sphinx
  | 16 => .bartlett
  | 17 => .robidoux
  | 18 => .robidouxSharp
  | 19 => .spline16
  | 20 => .spline36
  | 21 => .spline64
  | 22 => .kaiser
  | 23 => .bartlettHann
  | 24 => .box
  | 25 => .bohman
  | 26 => .lanczos2
  | 27 => .lanczos3
  | 28 => .lanczos4
  | 29 => .lanczos2Jinc
  | 30 => .lanczos3Jinc
  | 31 => .lanczos4Jinc
  | 32 => .ewaHanning
  | 33 => .ewaRobidoux
  | 34 => .ewaBlackman
  | 35 => .ewaQuadric
  | 36 => .ewaRobidouxSharp
  | 37 => .ewaLanczos3Jinc
  | 38 => .ginseng
  | 39 => .ewaGinseng
  | 40 => .ewaLanczosSharp
  | 41 => .ewaLanczos4Sharpest
  | 42 => .ewaLanczosSoft
  | 43 => .haasnSoft
  | 44 => .lagrange2
  | 45 => .lagrange3
  | 46 => .lanczos6
  | 47 => .lanczos6Jinc
  | 48 => .area
  | _ => .bilinear

/-- Functions of libm and of `bessel_order_one.rs`/`kaiser.rs`, left arbitrary. -/
structure Lib where
  sin : ℚ → ℚ
  cos : ℚ → ℚ
  exp : ℚ → ℚ
  sqrt : ℚ → ℚ
  /-- `j1(x) / x` for `x ≠ 0`, `src/math/bessel_order_one.rs:333`. -/
  j1OverX : ℚ → ℚ
  kaiser : ℚ → ℚ
  pi : ℚ
  sqrt2 : ℚ

namespace Kernel

variable (ρ : ℚ → ℚ) (L : Lib)

local notation:65 a:65 " +. " b:66 => ρ (a + b)
local notation:65 a:65 " -. " b:66 => ρ (a - b)
local notation:70 a:70 " *. " b:71 => ρ (a * b)
local notation:70 a:70 " /. " b:71 => ρ (a / b)

/-- `src/math/bilinear.rs:33-43`. -/
def bilinear (x : ℚ) : ℚ := let x := |x|; if x < 1 then 1 -. x else 0

/-- `src/sampler.rs:57-62`. -/
def boxWeight (_ : ℚ) : ℚ := 1

/-- `src/math/bc_spline.rs:34-72`. -/
def bcSpline (d b c : ℚ) : ℚ :=
  let x := if d < 0 then -d else d
  let dp := x *. x
  let tp := dp *. x
  if x < 1 then
    (((12 -. (9 *. b)) -. (6 *. c)) *. tp +. ((-18 +. (12 *. b)) +. (6 *. c)) *. dp +. (6 -. (2 *. b))) *. (1 /. 6)
  else if x < 2 then
    ((-b -. (6 *. c)) *. tp +. ((6 *. b) +. (30 *. c)) *. dp +. ((-12 *. b) -. (48 *. c)) *. x +.
      ((8 *. b) +. (24 *. c))) *. (1 /. 6)
  else 0

/-- `src/math/bc_spline.rs:74-92`. -/
def hermiteSpline (x : ℚ) : ℚ := bcSpline ρ x 0 0
/-- `src/math/bc_spline.rs:94-112`. -/
def bSpline (x : ℚ) : ℚ := bcSpline ρ x 1 0
/-- `src/math/bc_spline.rs:114-132`. -/
def mitchellNetravalli (x : ℚ) : ℚ := bcSpline ρ x (1 /. 3) (1 /. 3)
/-- `src/math/bc_spline.rs:134-152`. -/
def catmullRom (x : ℚ) : ℚ := bcSpline ρ x 0 (1 / 2)
/-- `src/math/bc_spline.rs:154-177`. -/
def robidoux (x : ℚ) : ℚ :=
  bcSpline ρ x (12 /. (19 +. (9 *. L.sqrt2))) (13 /. (58 +. (216 *. L.sqrt2)))
/-- `src/math/bc_spline.rs:179-202`. -/
def robidouxSharp (x : ℚ) : ℚ :=
  bcSpline ρ x (6 /. (13 +. (7 *. L.sqrt2))) (7 /. (2 +. (12 *. L.sqrt2)))

/-- `src/math/cubic.rs:34-61`. -/
def cubicSpline (d : ℚ) : ℚ :=
  let x := if d < 0 then -d else d
  if x < 1 then (4 +. x *. x *. (3 *. x -. 6)) *. (1 /. 6)
  else if x < 2 then (8 +. x *. (-12 +. x *. (6 -. x))) *. (1 /. 6)
  else 0

/-- `src/math/cubic.rs:64-91`. -/
def bicubicSpline (d : ℚ) : ℚ :=
  let a : ℚ := -1 / 2
  let m := |d|
  if 2 ≤ m then 0
  else
    let f := m *. m
    let t := f *. m
    if m ≤ 1 then ((a +. 2) *. t -. (a +. 3) *. f) +. 1
    else (a *. t -. (5 *. a) *. f +. (8 *. a) *. m) -. (4 *. a)

/-- `src/math/quadric.rs:34-48`. -/
def quadric (x : ℚ) : ℚ :=
  let x := |x|
  if x < 1 / 2 then 3 / 4 -. (x *. x)
  else if x < 3 / 2 then
    let t := x -. 3 / 2
    1 / 2 *. t *. t
  else 0

/-- `src/math/welch.rs:34-45`. -/
def welch (x : ℚ) : ℚ := if x = 0 then 1 else if 1 ≤ x then 0 else 1 -. (x *. x)

/-- `src/math/bartlett.rs:35-45`. -/
def bartlett (x : ℚ) : ℚ := if 0 ≤ x ∧ x ≤ 1 then 2 *. x else 2 -. (2 *. x)

/-- `src/math/bartlett.rs:48-63`. -/
def bartlettHann (x : ℚ) : ℚ :=
  let x := |x|
  if 2 < x then 0
  else
    let fac := |x /. (2 -. 1) -. 1 / 2|
    (ρ (62 / 100) -. ρ (4832 / 10000) *. fac) +. ρ (38 / 100) *. L.cos (2 *. L.pi *. fac)

/-- `src/math/lagrange.rs:34-64`: the loop `for i in 0..2*support`, `n = (support + x) as usize`. -/
def lagrange (support : ℕ) (x : ℚ) : ℚ :=
  if (support : ℚ) < x then 0
  else
    let n := F32.toUsize ⌊(support : ℚ) +. x⌋
    (List.range (2 * support)).foldl (fun v i =>
      if i ≠ n then v *. ((((n : ℚ) -. (i : ℚ)) -. x) /. ((n : ℚ) -. (i : ℚ))) else v) 1

/-- `src/math/spline_n.rs:34-57`. -/
def spline16 (x : ℚ) : ℚ :=
  if x < 1 then ((x -. (9 /. 5)) *. x -. (1 /. 5)) *. x +. 1
  else (((-1 /. 3) *. (x -. 1) +. (4 /. 5)) *. (x -. 1) -. (7 /. 15)) *. (x -. 1)

/-- `src/math/spline_n.rs:60-90`. -/
def spline36 (x : ℚ) : ℚ :=
  if x < 1 then ((13 /. 11 *. x -. (453 /. 209)) *. x -. (3 /. 209)) *. x +. 1
  else if x < 2 then
    (((-6 /. 11) *. (x -. 1) +. (270 /. 209)) *. (x -. 1) -. (156 /. 209)) *. (x -. 1)
  else ((1 /. 11 *. (x -. 2) -. (45 /. 209)) *. (x -. 2) +. (26 /. 209)) *. (x -. 2)

/-- `src/math/spline_n.rs:93-129`. -/
def spline64 (x : ℚ) : ℚ :=
  if x < 1 then ((49 /. 41 *. x -. (6387 /. 2911)) *. x -. (3 /. 2911)) *. x +. 1
  else if x < 2 then
    (((-24 /. 41) *. (x -. 1) +. (4032 /. 2911)) *. (x -. 1) -. (2328 /. 2911)) *. (x -. 1)
  else if x < 3 then
    ((6 /. 41 *. (x -. 2) -. (1008 /. 2911)) *. (x -. 2) +. (582 /. 2911)) *. (x -. 2)
  else (((-1 /. 41) *. (x -. 3) +. (168 /. 2911)) *. (x -. 3) -. (97 /. 2911)) *. (x -. 3)

/-- `src/math/sinc.rs:34-43`. -/
def sinc (x : ℚ) : ℚ := if x = 0 then 1 else L.sin x /. x

/-- `jinc_f32`, `src/math/bessel_order_one.rs:329-334`. -/
def jinc (x : ℚ) : ℚ := if x = 0 then 0 else L.j1OverX x

/-- `src/math/lanczos.rs:113-126`. -/
def lanczosSinc (a x : ℚ) : ℚ :=
  let scaleA := 1 /. a
  if |x| < a then
    let d := L.pi *. x
    sinc ρ L d *. sinc ρ L (d *. scaleA)
  else 0

/-- `src/math/lanczos.rs:37-57`. -/
def lanczosJinc (a x : ℚ) : ℚ :=
  let scaleA := 1 /. a
  if x = 0 ∨ ρ (16247661874700962 / 1000000000000000) < x then 0
  else if |x| < a then
    let d := L.pi *. x
    jinc L d *. jinc L (d *. scaleA)
  else 0

/-- `src/math/hann.rs:35-53`. -/
def hann (x : ℚ) : ℚ :=
  let part := L.pi /. 4
  if 2 < |x| then 0
  else
    let r := L.cos (x *. part)
    let r := r *. r
    r *. (1 / 4)

/-- `src/math/hann.rs:56-73`. -/
def hamming (x : ℚ) : ℚ :=
  let x := |x|
  if x = 0 then 1 else if 1 ≤ x then 0
  else ρ (54 / 100) +. ρ (46 / 100) *. L.cos (x *. L.pi)

/-- `src/math/hann.rs:76-93`. -/
def hanning (x : ℚ) : ℚ :=
  let x := |x|
  if x = 0 then 1 else if 1 ≤ x then 0
  else 1 / 2 +. 1 / 2 *. L.cos (x *. L.pi)

/-- `src/math/blackman.rs:36-43`. -/
def blackmanWindow (x : ℚ) : ℚ :=
  (ρ (42 / 100) -. ρ (49656062 / 100000000) *. L.cos (2 *. L.pi *. x)) +.
    ρ (7684867 / 100000000) *. L.cos (4 *. L.pi *. x)

/-- `src/math/blackman.rs:46-56`. -/
def blackman (x : ℚ) : ℚ :=
  let x := |x|
  if x < 2 then sinc ρ L x *. blackmanWindow ρ L (x /. 2) else 0

/-- `src/math/bohman.rs:34-43`. -/
def bohman (x : ℚ) : ℚ :=
  if x < -1 ∨ 1 < x then 0
  else
    let dx := L.pi *. |x|
    (1 -. |x|) *. L.cos dx +. (1 /. L.pi) *. L.sin dx

/-- `src/math/gaussian.rs:35-48`. -/
def gaussian (x : ℚ) : ℚ :=
  let sigma := ρ (35 / 100)
  let den := 2 *. sigma *. sigma
  let den := den *. den
  (1 /. (L.sqrt (2 *. L.pi) *. sigma)) *. L.exp (-x /. den)

/-- `src/math/sphinx.rs:34-43`. -/
def sphinx (x : ℚ) : ℚ :=
  if |x| < ρ (1 / 100000000) then 1
  else
    let x := x *. L.pi
    (3 *. (L.sin x -. (x *. L.cos x))) /. (x *. x *. x)

end Kernel

open Kernel

/-- `ResamplingFilter::new`, `src/sampler.rs:207-217`. -/
def Filter.new (k : ℚ → ℚ) (size : ℚ) (ewa : Bool) : Filter := ⟨k, none, size, ewa, true, false⟩
/-- `ResamplingFilter::new_with_window`, `src/sampler.rs:218-233`. -/
def Filter.newWithWindow (k : ℚ → ℚ) (w : Window) (size : ℚ) (ewa : Bool) : Filter :=
  ⟨k, some w, size, ewa, true, false⟩
/-- `ResamplingFilter::new_with_fixed_kernel`, `src/sampler.rs:234-247`. -/
def Filter.newWithFixedKernel (k : ℚ → ℚ) (size : ℚ) (ewa : Bool) : Filter := ⟨k, none, size, ewa, false, false⟩
/-- `ResamplingFilter::new_with_area`, `src/sampler.rs:249-258`. -/
def Filter.newWithArea (k : ℚ → ℚ) (size : ℚ) : Filter := ⟨k, none, size, false, true, true⟩

/-- `JINC_R3`, `src/sampler.rs:261`. -/
def jincR3 (ρ : ℚ → ℚ) : ℚ := ρ (32383154841662362 / 10000000000000000)
/-- `JINC_R4`, `src/sampler.rs:262`. -/
def jincR4 (ρ : ℚ → ℚ) : ℚ := ρ (42410628637960699 / 10000000000000000)

/-- `ResamplingFunction::get_resampling_filter`, `src/sampler.rs:265-383`. -/
def filterOf (ρ : ℚ → ℚ) (L : Lib) : ResamplingFunction → Filter
  | .bilinear => .new (bilinear ρ) 2 false
  | .nearest => .new (bilinear ρ) 2 false
  | .cubic => .new (cubicSpline ρ) 2 false
  | .mitchellNetravalli => .new (mitchellNetravalli ρ) 2 false
  | .catmullRom => .new (catmullRom ρ) 2 false
  | .hermite => .new (hermiteSpline ρ) 2 false
  | .bSpline => .new (bSpline ρ) 2 false
  | .hann => .new (hann ρ L) 3 false
  | .bicubic => .new (bicubicSpline ρ) 2 false
  | .hamming => .new (hamming ρ L) 2 false
  | .hanning => .new (hanning ρ L) 2 false
  | .ewaHanning => .newWithWindow (jinc L) ⟨hanning ρ L, 2, 0, 0⟩ 1 true
  | .blackman => .new (blackman ρ L) 2 false
  | .ewaBlackman => .new (blackman ρ L) 2 true
  | .welch => .new (welch ρ) 2 false
  | .quadric => .new (quadric ρ) 2 false
  | .ewaQuadric => .new (quadric ρ) 2 true
  | .gaussian => .new (gaussian ρ L) 2 false
  | .sphinx => .new (sphinx ρ L) 2 false
  | .bartlett => .new (bartlett ρ) 2 false
  | .robidoux => .new (robidoux ρ L) 2 false
  | .ewaRobidoux => .new (robidoux ρ L) 2 true
  | .robidouxSharp => .new (robidouxSharp ρ L) 2 false
  | .ewaRobidouxSharp => .new (robidouxSharp ρ L) 2 true
  | .spline16 => .newWithFixedKernel (spline16 ρ) 2 false
  | .spline36 => .newWithFixedKernel (spline36 ρ) 4 false
  | .spline64 => .newWithFixedKernel (spline64 ρ) 6 false
  | .kaiser => .new L.kaiser 2 false
  | .bartlettHann => .new (bartlettHann ρ L) 2 false
  | .box => .new boxWeight 2 false
  | .bohman => .new (bohman ρ L) 2 false
  | .lanczos2 => .new (lanczosSinc ρ L 2) 2 false
  | .lanczos3 => .new (lanczosSinc ρ L 3) 3 false
  | .lanczos4 => .new (lanczosSinc ρ L 4) 4 false
  | .lanczos2Jinc => .new (lanczosJinc ρ L 2) 2 false
  | .lanczos3Jinc => .new (lanczosJinc ρ L 3) 3 false
  | .lanczos4Jinc => .new (lanczosJinc ρ L 4) 4 false
  | .ewaLanczos3Jinc => .new (lanczosJinc ρ L 3) 3 true
  | .ginseng => .newWithWindow (sinc ρ L) ⟨jinc L, 3, 1, 0⟩ 3 false
  | .ewaGinseng => .newWithWindow (sinc ρ L) ⟨jinc L, jincR3 ρ, 1, 0⟩ 3 true
  | .ewaLanczosSharp => .newWithWindow (jinc L) ⟨jinc L, jincR3 ρ, ρ (9812505837223707 / 10000000000000000), 0⟩ 3 true
  | .ewaLanczos4Sharpest => .newWithWindow (jinc L) ⟨jinc L, jincR4 ρ, ρ (8845120932605005 / 10000000000000000), 0⟩ 4 true
  | .ewaLanczosSoft => .newWithWindow (jinc L) ⟨jinc L, jincR3 ρ, ρ (10164667662867047 / 10000000000000000), 0⟩ 3 true
  | .haasnSoft => .newWithWindow (jinc L) ⟨hanning ρ L, 3, ρ (111 / 100), 0⟩ 3 false
  | .lagrange2 => .new (lagrange ρ 2) 2 false
  | .lagrange3 => .new (lagrange ρ 3) 3 false
  | .lanczos6 => .new (lanczosSinc ρ L 6) 6 false
  | .lanczos6Jinc => .new (lanczosJinc ρ L 6) 6 false
  | .area => .newWithArea boxWeight 2

end PicScale
