import Mathlib.Data.Rat.Floor
import Verif.Model.Pass
import Verif.Model.F32

/-!
`Scaler::generate_weights` (`src/scaler.rs:353-567`) and
`FilterWeights::numerical_approximation` (`src/filter_weights.rs:81-131`).

Arithmetic is over `ℚ` with an explicit rounding `ρ` after every floating point operation:
`ρ = F32.rnd` is the code (`T = f32` in every caller), `ρ = id` is the same algorithm in exact
arithmetic. Kernel and window functions (`fn(T) -> T`) are arbitrary functions `ℚ → ℚ`; NaN and
infinities are not modelled.
-/

namespace PicScale

/-- `ResamplingWindow<T>`, `src/sampler.rs:177-195`. -/
structure Window where
  window : ℚ → ℚ
  windowSize : ℚ
  blur : ℚ
  taper : ℚ

/-- `ResamplingFilter<T>`, `src/sampler.rs:196-204`. -/
structure Filter where
  kernel : ℚ → ℚ
  window : Option Window
  minKernelSize : ℚ
  isEwa : Bool
  isResizable : Bool
  isArea : Bool

variable (ρ : ℚ → ℚ)

/-- `let scale = in_size.as_() / out_size.as_()`, `src/scaler.rs:376`. -/
def wScale (inn out : ℕ) : ℚ := ρ (ρ inn / ρ out)

/-- `filter_scale_cutoff`, `src/scaler.rs:378-381`. -/
def wCutoff (f : Filter) (inn out : ℕ) : ℚ := if f.isResizable then max (wScale ρ inn out) 1 else 1

/-- `base_size` = `kernel_size`, `src/scaler.rs:391-392`. -/
def wKernelSize (f : Filter) (inn out : ℕ) : ℕ :=
  F32.toUsize (F32.round (ρ (f.minKernelSize * wCutoff ρ f inn out)))

/-- `filter_radius`, `src/scaler.rs:393`. -/
def wRadius (f : Filter) (inn out : ℕ) : ℚ := ρ (ρ (wKernelSize ρ f inn out) / 2)

/-- `center_x`, `src/scaler.rs:409`. -/
def wCenter (inn out i : ℕ) : ℚ := min (ρ (ρ (ρ i + 1 / 2) * wScale ρ inn out)) (ρ inn)

/-- `start`, `src/scaler.rs:413`. -/
def wStart (f : Filter) (inn out i : ℕ) : ℕ :=
  F32.toUsize (max ⌊ρ (wCenter ρ inn out i - wRadius ρ f inn out)⌋ 0)

/-- `end`, `src/scaler.rs:414-418`. -/
def wEnd (f : Filter) (inn out i : ℕ) : ℕ :=
  F32.toUsize ⌊min (min (⌈ρ (wCenter ρ inn out i + wRadius ρ f inn out)⌉ : ℚ)
    (ρ (ρ (wStart ρ f inn out i) + ρ (wKernelSize ρ f inn out)))) (ρ inn)⌋

/-- `blur_scale`, `src/scaler.rs:398-407` (only read when there is a window). -/
def wBlurScale (w : Window) : ℚ := if 0 < w.blur then ρ (1 / w.blur) else 0

/-- `filter_scale`, `src/scaler.rs:394`. -/
def wFilterScale (f : Filter) (inn out : ℕ) : ℚ := ρ (1 / wCutoff ρ f inn out)

/-- The weight of tap `k` before normalisation, `src/scaler.rs:420-449`. -/
def rawWeight (f : Filter) (inn out i k : ℕ) : ℚ :=
  let center := ρ (wCenter ρ inn out i - 1 / 2)
  let dx := |ρ (ρ k - center)|
  let fs := wFilterScale ρ f inn out
  match f.window with
  | none => f.kernel (ρ (dx * fs))
  | some w =>
    let x := if 0 < w.blur then ρ (dx * wBlurScale ρ w) else dx
    let x := if x ≤ w.taper then 0 else ρ (ρ (x - w.taper) / ρ (1 - w.taper))
    let xs := ρ (x * fs)
    let win := if x < w.windowSize then w.window (ρ (xs * w.windowSize)) else 0
    ρ (win * f.kernel xs)

/-- `weights_sum += w` over the taps, `src/scaler.rs:410, 450`. -/
def sumF (ws : List ℚ) : ℚ := ws.foldl (fun s w => ρ (s + w)) 0

/-- The EWA smoothing loop `for j in 1..local_filter_iteration`, `src/scaler.rs:457-468`, given the
previous (already smoothed) weight and the remaining raw ones: the smoothed ones and the sum. -/
def ewaLoop (prev sum : ℚ) : List ℚ → List ℚ × ℚ
  | [] => ([], sum)
  | w :: ws =>
    let nw := ρ (ρ (ρ (7 / 10) * w) + ρ (ρ (1 - ρ (7 / 10)) * prev))
    let (r, s) := ewaLoop nw (ρ (sum + nw)) ws
    (nw :: r, s)

/-- `src/scaler.rs:457-468`: with an EWA filter smooth the first `n` local filters in place and
recompute the sum from `local_filters[0]`; otherwise keep the filters and the accumulated sum. -/
def smooth (f : Filter) (n : ℕ) (sum : ℚ) (lf : List ℚ) : List ℚ × ℚ :=
  match f.isEwa, lf with
  | true, l0 :: rest =>
    let (r, s) := ewaLoop ρ l0 l0 (rest.take (n - 1))
    (l0 :: (r ++ rest.drop (n - 1)), s)
  | _, lf => (lf, sum)

/-- Mutable state of the loop over output coordinates: `weights`, `local_filters`,
`filter_position`, and the bounds written so far. -/
structure WState where
  weights : List ℚ
  localFilters : List ℚ
  filterPosition : ℕ
  bounds : List Bounds

/-- The tail of the loop body: store the bound, normalise and write `weights`, advance
(`src/scaler.rs:470-487`): `weights.iter_mut().skip(pos).take(size).zip(local.iter().take(size))`. -/
def storeRow (kernelSize start size : ℕ) (sum : ℚ) (st : WState) : WState :=
  let w :=
    if sum ≠ 0 then
      let recpeq := ρ (fdiv 1 sum)
      let tail := st.weights.drop st.filterPosition
      st.weights.take st.filterPosition ++
        (overwrite ((st.localFilters.take size).map fun v => ρ (v * recpeq)) (tail.take size) ++
          tail.drop size)
    else st.weights
  { weights := w, localFilters := st.localFilters,
    filterPosition := st.filterPosition + kernelSize,
    bounds := st.bounds ++ [⟨start, size⟩] }

/-- One iteration for output coordinate `i` of the general branch, `src/scaler.rs:408-488`.
`none`: `end - start` underflows, or `local_filters.get_unchecked_mut` would be out of bounds. -/
def weightStep (f : Filter) (inn out : ℕ) (st : WState) (i : ℕ) : Option WState :=
  let start := wStart ρ f inn out i
  let fin := wEnd ρ f inn out i
  if fin < start then none
  else if st.localFilters.length < fin - start then none
  else
    let ws := (List.range (fin - start)).map fun j => rawWeight ρ f inn out i (start + j)
    let (lf, sum) := smooth ρ f ws.length (sumF ρ ws) (overwrite ws st.localFilters)
    some (storeRow ρ (wKernelSize ρ f inn out) start (fin - start) sum { st with localFilters := lf })

/-- `sx` of the area branch, `src/scaler.rs:512`. -/
def areaSx (inn out i : ℕ) : ℤ := ⌊ρ (ρ i * wScale ρ inn out)⌋

/-- `dx` of the area branch, `src/scaler.rs:513-519`. -/
def areaDx (inn out i : ℕ) : ℚ :=
  let inv := ρ (1 / wScale ρ inn out)
  let fx := ρ (ρ (i + 1 : ℕ) - ρ (ρ (areaSx ρ inn out i + 1) * inv))
  |if fx ≤ 0 then 0 else ρ (fx - ⌊fx⌋)|

/-- `start` of the area branch, `src/scaler.rs:525`. -/
def areaStart (inn out i : ℕ) : ℕ := F32.toUsize (max (areaSx ρ inn out i) 0)

/-- `end` of the area branch, `src/scaler.rs:526-530`. -/
def areaEnd (inn out i : ℕ) : ℕ :=
  F32.toUsize ⌊min (min (⌈ρ (areaSx ρ inn out i + 2)⌉ : ℚ)
    (ρ (ρ (areaStart ρ inn out i) + 2))) (ρ inn)⌋

/-- One iteration of the area branch, `src/scaler.rs:509-556`. The `else` arm of `weights_sum != 0`
writes `weights[filter_position] = 1`. -/
def areaStep (inn out : ℕ) (st : WState) (i : ℕ) : Option WState :=
  let dx := areaDx ρ inn out i
  let w0 := ρ (1 - dx)
  let w1 := dx
  let start := areaStart ρ inn out i
  let fin := areaEnd ρ inn out i
  if fin < start then none
  else
    let size := fin - start
    let sum := ρ (0 + w0)
    let sum := if 1 < size then ρ (sum + w1) else sum
    let st := { st with localFilters := [w0, w1] }
    if sum ≠ 0 then some (storeRow ρ 2 start size sum st)
    else do
      let w ← writeAt? st.weights st.filterPosition [1]
      some { weights := w, localFilters := st.localFilters,
             filterPosition := st.filterPosition + 2, bounds := st.bounds ++ [⟨start, size⟩] }

/-- `Scaler::generate_weights`, `src/scaler.rs:353-567`. (`bounds` is pre-sized to `out_size` and
filled by `iter_mut().enumerate()`; here it grows by one per iteration.) -/
def generateWeights (f : Filter) (inn out : ℕ) : Option (FilterWeights ℚ) :=
  if f.isArea ∧ wScale ρ inn out < 1 then do
    let st ← (List.range out).foldlM (areaStep ρ inn out)
      ⟨List.replicate (2 * out) 0, List.replicate 2 0, 0, []⟩
    some ⟨st.weights, st.bounds, 2, 2, out⟩
  else do
    let ks := wKernelSize ρ f inn out
    let st ← (List.range out).foldlM (weightStep ρ f inn out)
      ⟨List.replicate (ks * out) 0, List.replicate ks 0, 0, []⟩
    some ⟨st.weights, st.bounds, ks, ks, out⟩

/-- `(weight * precision_scale).round().min(upper).max(lower).as_()` with `J = i16`,
`PRECISION = 15`, `src/filter_weights.rs:97-114`. -/
def quantise (w : ℚ) : ℤ := max (min (F32.round (ρ (w * 32768))) 32767) (-32768)

/-- `FilterWeights::<f32>::numerical_approximation::<i16, 15>(0)`,
`src/filter_weights.rs:81-131`. The chunks of `weights` and of the new vector have the same length
`kernel_size` (alignment 0); elements not covered by a full chunk keep `0`. -/
def numericalApproximation (fw : FilterWeights ℚ) : FilterWeights ℤ :=
  let out := List.replicate (fw.distinctElements * fw.kernelSize) 0
  let chunks := chunksExact fw.kernelSize fw.weights
  let body := (chunks.take (out.length / fw.kernelSize)).flatMap fun c => c.map (quantise ρ)
  ⟨overwrite body out, fw.bounds, fw.kernelSize, fw.kernelSize, fw.distinctElements⟩

end PicScale
