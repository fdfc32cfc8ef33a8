import Verif.Model.Conductivity
import Verif.Base.Loop
/-!
The temperature gradient and the heat flux of the elements: `TemperatureGradientKernel` (`src/analysis/assembler/heattransfer/op.gradient.h`), `TemperatureFluxKernel`
(`heattransfer/op.flux.h`), the loop over the integration points of `runElementKernel` (`heattransfer/kernel.h` 327-377), and the values of an interval in the array of the results.

Simplifications: exact arithmetic; one lane except for the stores; the conductivity is computed in every point (the code does it once if it is constant); the array of the results is a
list with checked indices; the lanes behind the last element of an interval contain arbitrary values.
-/
namespace Verif.Results

open Verif.Fem

section
variable {K : Type} [Field K] [DecidableEq K]

/-- `TemperatureGradientKernel::simd` (op.gradient.h 38-44, 68-75), and the sums `fgp` of op.flux.h. -/
def gradientPoint (nodes : Nat) (dND : Nat → Nat → K) (T : Nat → K) (g : Nat → K) : Nat → K :=
  (List.range nodes).foldl (fun g n d => g d + dND n d * T n) g

/-- `TemperatureFluxKernel<nodes, gps, 2>::simd` (op.flux.h 40-85). -/
def fluxPoint2 (model : Conduct) (nodes : Nat) (dND : Nat → Nat → K) (T c f : Nat → K) : Nat → K :=
  let g := gradientPoint nodes dND T fun _ => 0
  match model with
  | .isotropic => fun d => match d with
    | 0 => f 0 + g 0 * c 0
    | 1 => f 1 + g 1 * c 0
    | d => f d
  | .diagonal => fun d => match d with
    | 0 => f 0 + g 0 * c 0
    | 1 => f 1 + g 1 * c 3
    | d => f d
  | .symmetric => fun d => match d with
    | 0 => f 0 + g 0 * c 0 + g 1 * c 1
    | 1 => f 1 + g 0 * c 1 + g 1 * c 3
    | d => f d
  | .anisotropic => fun d => match d with
    | 0 => f 0 + g 0 * c 0 + g 1 * c 1
    | 1 => f 1 + g 0 * c 2 + g 1 * c 3
    | d => f d

/-- `TemperatureFluxKernel<nodes, gps, 3>::simd` (op.flux.h 108-161). -/
def fluxPoint3 (model : Conduct) (nodes : Nat) (dND : Nat → Nat → K) (T c f : Nat → K) : Nat → K :=
  let g := gradientPoint nodes dND T fun _ => 0
  match model with
  | .isotropic => fun d => match d with
    | 0 => f 0 + g 0 * c 0
    | 1 => f 1 + g 1 * c 0
    | 2 => f 2 + g 2 * c 0
    | d => f d
  | .diagonal => fun d => match d with
    | 0 => f 0 + g 0 * c 0
    | 1 => f 1 + g 1 * c 4
    | 2 => f 2 + g 2 * c 8
    | d => f d
  | .symmetric => fun d => match d with
    | 0 => f 0 + g 0 * c 0 + g 1 * c 1 + g 2 * c 2
    | 1 => f 1 + g 0 * c 1 + g 1 * c 4 + g 2 * c 5
    | 2 => f 2 + g 0 * c 2 + g 1 * c 5 + g 2 * c 8
    | d => f d
  | .anisotropic => fun d => match d with
    | 0 => f 0 + g 0 * c 0 + g 1 * c 1 + g 2 * c 2
    | 1 => f 1 + g 0 * c 3 + g 1 * c 4 + g 2 * c 5
    | 2 => f 2 + g 0 * c 6 + g 1 * c 7 + g 2 * c 8
    | d => f d

/-- `TemperatureFluxKernel<nodes, gps, ndim>` (op.flux.h 34-184). -/
def fluxPoint (dim : Nat) (model : Conduct) (nodes : Nat) (dND : Nat → Nat → K) (T c f : Nat → K) : Nat → K :=
  match dim with
  | 2 => fluxPoint2 model nodes dND T c f
  | _ => fluxPoint3 model nodes dND T c f

/-- The gradient of one element before it is stored (kernel.h 327-369 with op.gradient.h 49-51, 80-83); `store` leaves zeros for the next element. -/
def elementGradient (sqrt : K → K) (c : Code) (gps : Nat) (T : Nat → K) (coords : Nat → Nat → K) : Option (Nat → K) := do
  let pts ← rulePoints sqrt c gps
  let s ← pts.foldlM (fun s p => do
    let tab ← setAt c gps p.1
    let g ← integrate (edim c) (nodes c) (slopeOf tab) coords
    pure (gradientPoint (nodes c) g.dND T s)) fun _ => 0
  pure fun d => s d * (1 / (gps : K))

/-- The flux of one element before it is stored (kernel.h 327-369 with op.flux.h 90-92, 166-169); `old` is the content of `conductivity`. -/
def elementFlux (sqrt : K → K) (c : Code) (gps : Nat) (m : Material K) (T : Nat → K) (old : Nat → K) (coords : Nat → Nat → K) : Option (Nat → K) := do
  let pts ← rulePoints sqrt c gps
  let (f, _) ← pts.foldlM (fun (f, cond) p => do
    let tab ← setAt c gps p.1
    let g ← integrate (edim c) (nodes c) (slopeOf tab) coords
    let cond := conductivity (edim c) m.rotated m.model (m.ecf p.1) (m.cossin p.1) cond
    pure (fluxPoint (edim c) m.matrixModel (nodes c) g.dND T cond f, cond)) ((fun _ => 0 : Nat → K), old)
  pure fun d => f d * (1 / (gps : K))

end

section
variable {V : Type}

/-- `out[dim * s + d] = …` for the lane `s` (op.gradient.h 55-56, 87-89, op.flux.h 96-97, 173-175); `ptr` is the offset of the pointer `gradient` or `flux`. -/
def storeLane (dim ptr s : Nat) (v : Nat → V) (out : List V) : Option (List V) :=
  forLoop 0 dim out fun d out => wr out (ptr + dim * s + d) (v d)

/-- `store` (op.gradient.h 52-59, 84-92, op.flux.h 93-100, 170-178): `end - gradient` is the number of values left. -/
def storeChunk (dim size : Nat) (lanes : Nat → Nat → V) (st : Nat × List V) : Option (Nat × List V) := do
  let n := if st.1 ≤ st.2.length then min size (st.2.length - st.1) else size
  let out ← forLoop 0 n st.2 fun s out => storeLane dim st.1 s (lanes s) out
  some (st.1 + dim * n, out)

/-- An interval of elements: its first element, the number of its elements, the values in the lanes. -/
structure Interval (V : Type) where
  begin : Nat
  elements : Nat
  value : Nat → Nat → V

/-- `elementKernels[i].chunks` (heattransfer.cpp 51). -/
def Interval.chunks (I : Interval V) (size : Nat) : Nat := I.elements / size + if I.elements % size ≠ 0 then 1 else 0

/-- The stores of an interval (op.gradient.h 25, op.flux.h 27, kernel.h 316, 371-377). -/
def storeInterval (dim size : Nat) (I : Interval V) (out : List V) : Option (List V) := do
  let (_, out) ← forLoop 0 (I.chunks size) (dim * I.begin, out) fun c st => storeChunk dim size (fun s => I.value (c * size + s)) st
  some out

/-- The intervals in the order in which the threads process them (assembler.cpp 61-72). -/
def storeAll (dim size : Nat) (Is : List (Interval V)) (out : List V) : Option (List V) := Is.foldlM (fun out I => storeInterval dim size I out) out

end

end Verif.Results
