import Verif.Model.DualMap
/-!
The implicit dual operator of Total FETI (`src/feti/dualoperator/totalfeti.implicit.cpp`) and the preconditioners lumped and Dirichlet (`src/feti/preconditioner/lumped.cpp`, `dirichlet.cpp`), the
part of one process before the synchronization of the result (C61 is about the synchronization).

Simplifications: values are from a commutative ring; the sparse solver `KSolver[d].solve`, the product with the stiffness matrix `KSpBlas[d].apply` and the Schur complements `sc` are parameters;
the loops `#pragma omp parallel for` over domains write a different element in every iteration and are executed in order.
-/
namespace Verif.Feti

open Verif.Csx

variable {R : Type} [CommRing R]

/-- `feti.B1[d]` and `feti.D2C[d]` for all domains of the process. -/
abbrev Glue (R : Type) := List (Csx R × List Nat)

/-- `for (d = 0; d < n; ++d) { out[d] = f(d, out[d]); }`. -/
def forDomains {A : Type} (n : Nat) (out : List A) (f : Nat → A → Option A) : Option (List A) :=
  forLoop 0 n out fun d out => do
    let old ← out[d]?
    let new ← f d old
    wr out d new

/-- The arguments of `applyB` (`feti.B1`, `feti.D2C`, `in`). -/
def glueWith (G : Glue R) (u : List (List R)) : Domains R := List.zipWith (fun g u => (g.1, g.2, u)) G u

/-- The loop with `applyBt` (`totalfeti.implicit.cpp` 121-124). -/
def applyBtAll (G : Glue R) (x : List R) (btx : List (List R)) : Option (List (List R)) :=
  forDomains G.length btx fun d old => do
    let g ← G[d]?
    applyBt g.1 g.2 x old 1

/-- `_applyK` (208-214). -/
def applyK (n : Nat) (solve : Nat → List R → List R) (x y : List (List R)) : Option (List (List R)) :=
  forDomains n y fun d _ => do
    let v ← x[d]?
    some (solve d v)

/-- `_apply` (119-128): `(y, Btx, KplusBtx)`. -/
def implicitApply (G : Glue R) (solve : Nat → List R → List R) (x y : List R) (btx kbtx : List (List R)) : Option (List R × List (List R) × List (List R)) := do
  let btx ← applyBtAll G x btx
  let kbtx ← applyK G.length solve btx kbtx
  let y ← applyB (glueWith G kbtx) y
  some (y, btx, kbtx)

/-- The part of `update` before the synchronization of `d` (105-106): `(d, KplusBtx)`. -/
def implicitRhs (G : Glue R) (solve : Nat → List R → List R) (f : List (List R)) (d : List R) (kbtx : List (List R)) : Option (List R × List (List R)) := do
  let kbtx ← applyK G.length solve f kbtx
  let d ← applyB (glueWith G kbtx) d
  some (d, kbtx)

/-- `math::add(y, a, x)` (`y += a x`; used in `update`, 108, and in `toPrimal`). -/
def addScaled (y : List R) (a : R) (x : List R) : Option (List R) :=
  forLoop 0 y.length y fun i y => do
    let v ← y[i]?
    let w ← x[i]?
    wr y i (v + a * w)

/-- `toPrimal` (188-197): `(y, Btx, KplusBtx)`; the loop changes `Btx[di]` and `KplusBtx[di]`. -/
def toPrimal (G : Glue R) (solve : Nat → List R → List R) (x : List R) (f btx kbtx y : List (List R)) : Option (List (List R) × List (List R) × List (List R)) := do
  let st ← forDomains G.length (List.zip btx kbtx) fun d st => do
    let g ← G[d]?
    let b ← applyBt g.1 g.2 x st.1 1
    let copy ← f[d]?
    let k ← addScaled copy (-1) b
    some (b, k)
  let y ← applyK G.length solve (st.map (·.2)) y
  some (y, st.map (·.1), st.map (·.2))

/-- `Lumped::apply` (`lumped.cpp` 46-55) before the synchronization; the loop changes `Btx[d]` and `KBtx[d]`. -/
def lumpedApply (G : Glue R) (apply : Nat → List R → List R) (x y : List R) (btx kbtx : List (List R)) : Option (List R × List (List R) × List (List R)) := do
  let st ← forDomains G.length (List.zip btx kbtx) fun d st => do
    let g ← G[d]?
    let b ← applyBt g.1 g.2 x st.1 1
    some (b, apply d b)
  let y ← applyB (glueWith G (st.map (·.2))) y
  some (y, st.map (·.1), st.map (·.2))

/-- The marks in `Dirichlet::update` (`dirichlet.cpp` 50-53). -/
def markColumns (B : Csx R) : Option (List Nat) :=
  forLoop 0 B.idxs.length (List.replicate B.ns 0) fun i permutation => do
    let c ← B.idxs[i]?
    wr permutation c 1

/-- `indices[d]` in `Dirichlet::update` (`dirichlet.cpp` 50-59). -/
def boundaryIndices (B : Csx R) : Option (List Nat) := do
  let permutation ← markColumns B
  forLoop 0 permutation.length [] fun i indices => do
    let m ← permutation[i]?
    if m = 1 then some (indices ++ [i]) else some indices

/-- `math::blas::apply(y, 1, sc, 0, x)` for a square matrix with `n` rows: writes the first `n` values. -/
def denseApply (n : Nat) (sc : Nat → Nat → R) (x y : List R) : Option (List R) :=
  forLoop 0 n y fun i y => do
    let s ← forLoop 0 n (0 : R) fun j s => do
      let v ← x[j]?
      some (s + sc i j * v)
    wr y i s

/-- The values of the boundary to the front (`dirichlet.cpp` 85-87). -/
def compress (indices : List Nat) (v : List R) : Option (List R) :=
  forLoop 0 indices.length v fun i v => do
    let k ← indices[i]?
    let a ← v[k]?
    wr v i a

/-- The values from the front to the boundary, from the last one (`dirichlet.cpp` 89-91). -/
def expand (indices : List Nat) (v : List R) : Option (List R) :=
  forLoop 0 indices.length v fun n v => do
    let i := indices.length - n
    let k ← indices[i - 1]?
    let a ← v[i - 1]?
    wr v k a

/-- `Dirichlet::apply` (`dirichlet.cpp` 80-95) before the synchronization; `indices` and `sc` of each domain; the loop changes `Btx[d]` and `KBtx[d]`. -/
def dirichletApply (G : Glue R) (indices : List (List Nat)) (sc : Nat → Nat → Nat → R) (x y : List R) (btx kbtx : List (List R)) : Option (List R × List (List R) × List (List R)) := do
  let st ← forDomains G.length (List.zip btx kbtx) fun d st => do
    let g ← G[d]?
    let idx ← indices[d]?
    let b ← applyBt g.1 g.2 x st.1 1
    let b ← compress idx b
    let k ← denseApply idx.length (sc d) b st.2
    let k ← expand idx k
    some (b, k)
  let y ← applyB (glueWith G (st.map (·.2))) y
  some (y, st.map (·.1), st.map (·.2))

end Verif.Feti
