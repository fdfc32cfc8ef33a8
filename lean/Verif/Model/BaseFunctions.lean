import Verif.Base.Mem
import Mathlib.Algebra.Field.Basic
/-!
The basis functions of the finite elements (`src/analysis/assembler/general/basefunctions.h`): the `set` functions
fill the values `N[n]` and the derivatives `dN[n][d]` in one point of the reference element, `simd` calls them in the
integration points and in the nodes.

Simplifications: exact arithmetic in a field; a table has one entry per node, the value with the row of its derivatives
(the code has two arrays); the decimal constants of the formulas (all dyadic) are fractions.
-/
namespace Verif.Fem

variable {K : Type} [Field K]

/-- The codes with basis functions (basefunctions.h:651-734). -/
inductive Code where
  | line2
  | line3
  | triangle3
  | square4
  | triangle6
  | square8
  | tetra4
  | pyramid5
  | prisma6
  | hexa8
  | tetra10
  | pyramid13
  | prisma15
  | hexa20
deriving DecidableEq, Repr

/-- `nodes` of the element (basefunctions.h:653-733, 16, 54, 104, 151, 246, 345, 409). -/
def nodes : Code → Nat
  | .line2 => 2
  | .line3 => 3
  | .triangle3 => 3
  | .square4 => 4
  | .triangle6 => 6
  | .square8 => 8
  | .tetra4 => 4
  | .pyramid5 => 5
  | .prisma6 => 6
  | .hexa8 => 8
  | .tetra10 => 10
  | .pyramid13 => 13
  | .prisma15 => 15
  | .hexa20 => 20

/-- `edim`, the dimension of the reference element (basefunctions.h:653-733). -/
def edim : Code → Nat
  | .line2 => 1
  | .line3 => 1
  | .triangle3 => 2
  | .square4 => 2
  | .triangle6 => 2
  | .square8 => 2
  | .tetra4 => 3
  | .pyramid5 => 3
  | .prisma6 => 3
  | .hexa8 => 3
  | .tetra10 => 3
  | .pyramid13 => 3
  | .prisma15 => 3
  | .hexa20 => 3

/-- `n_order`: the node of every term of the degraded element (basefunctions.h:651-734). -/
def nOrder : Code → List Nat
  | .line2 => [0, 1]
  | .line3 => [0, 1, 2]
  | .triangle3 => [0, 1, 2, 2]
  | .square4 => [0, 1, 2, 3]
  | .triangle6 => [0, 1, 2, 2, 3, 4, 2, 5]
  | .square8 => [0, 1, 2, 3, 4, 5, 6, 7]
  | .tetra4 => [0, 1, 2, 2, 3, 3, 3, 3]
  | .pyramid5 => [0, 1, 2, 3, 4, 4, 4, 4]
  | .prisma6 => [0, 1, 2, 2, 3, 4, 5, 5]
  | .hexa8 => [0, 1, 2, 3, 4, 5, 6, 7]
  | .tetra10 => [0, 1, 2, 2, 3, 3, 3, 3, 4, 5, 2, 6, 3, 3, 3, 3, 7, 8, 9, 9]
  | .pyramid13 => [0, 1, 2, 3, 4, 4, 4, 4, 5, 6, 7, 8, 4, 4, 4, 4, 9, 10, 11, 12]
  | .prisma15 => [0, 1, 2, 2, 3, 4, 5, 5, 6, 7, 2, 8, 9, 10, 5, 11, 12, 13, 14, 14]
  | .hexa20 => [0, 1, 2, 3, 4, 5, 6, 7, 8, 9, 10, 11, 12, 13, 14, 15, 16, 17, 18, 19]

/-- `BaseFunctions<TRIANGLE3, 6>::set` (basefunctions.h:18-31). -/
def setTriangle3 (r s : K) : List (K × List K) :=
  [(1 - r - s, [-1, -1]),
   (r, [1, 0]),
   (s, [0, 1])]

/-- `BaseFunctions<TRIANGLE6, 6>::set` (basefunctions.h:56-78). -/
def setTriangle6 (r s : K) : List (K × List K) :=
  [((1 - r - s) * (1 - 2 * (r + s)), [-3 + 4 * r + 4 * s, -3 + 4 * r + 4 * s]),
   (-(r) * (1 - 2 * r), [-1 + 4 * r, 0]),
   (-(s) * (1 - 2 * s), [0, -1 + 4 * s]),
   (4 * (r) * (1 - r - s), [4 - 8 * r - 4 * s, -4 * r]),
   (4 * (r) * (s), [4 * s, 4 * r]),
   (4 * (s) * (1 - r - s), [-4 * s, 4 - 4 * r - 8 * s])]

/-- `BaseFunctions<TETRA4, 4>::set` (basefunctions.h:106-127). -/
def setTetra4 (r s t : K) : List (K × List K) :=
  [(r, [1, 0, 0]),
   (s, [0, 0, 1]),
   (t, [0, 1, 0]),
   (1 - r - s - t, [-1, -1, -1])]

/-- `BaseFunctions<TETRA10, 15>::set` (basefunctions.h:153-198). -/
def setTetra10 (r s t : K) : List (K × List K) :=
  [(r * (2 * r - 1), [4 * r - 1, 0, 0]),
   (s * (2 * s - 1), [0, 0, 4 * s - 1]),
   (t * (2 * t - 1), [0, 4 * t - 1, 0]),
   (2 * r * r + 4 * r * s + 4 * r * t - 3 * r + 2 * s * s + 4 * s * t - 3 * s + 2 * t * t - 3 * t + 1,
    [4 * r + 4 * s + 4 * t - 3,
     4 * r + 4 * s + 4 * t - 3,
     4 * r + 4 * s + 4 * t - 3]),
   (4 * r * s, [4 * s, 0, 4 * r]),
   (4 * s * t, [0, 4 * s, 4 * t]),
   (4 * r * t, [4 * t, 4 * r, 0]),
   (r * (-4 * r - 4 * s - 4 * t + 4), [-8 * r - 4 * s - 4 * t + 4, -4 * r, -4 * r]),
   (s * (-4 * r - 4 * s - 4 * t + 4), [-4 * s, -4 * s, -4 * r - 8 * s - 4 * t + 4]),
   (t * (-4 * r - 4 * s - 4 * t + 4), [-4 * t, -4 * r - 4 * s - 8 * t + 4, -4 * t])]

/-- `BaseFunctions<PYRAMID13, 14>::set` (basefunctions.h:248-305). -/
def setPyramid13 (r s t : K) : List (K × List K) :=
  [((((1 / 2) * (1 - t)) / 4) * ((1 - r) * (1 - s) * (-1 - ((1 / 2) * (1 - t)) * r - ((1 / 2) * (1 - t)) * s)),
    [-(t / 8 - 1 / 8) * (s - 1) * (r * (t / 2 - (1 / 2)) + s * (t / 2 - (1 / 2)) - 1) - (t / 2 - (1 / 2)) * (t / 8 - 1 / 8) * (r - 1) * (s - 1),
     -(t / 8 - 1 / 8) * (r - 1) * (r * (t / 2 - 1 / 2) + s * (t / 2 - 1 / 2) - 1) - (t / 2 - 1 / 2) * (t / 8 - 1 / 8) * (r - 1) * (s - 1),
     -((r - 1) * (s - 1) * (r * (t / 2 - (1 / 2)) + s * (t / 2 - (1 / 2)) - 1)) / 8 - (r / 2 + s / 2) * (t / 8 - 1 / 8) * (r - 1) * (s - 1)]),
   ((((1 / 2) * (1 - t)) / 4) * ((1 + r) * (1 - s) * (-1 + ((1 / 2) * (1 - t)) * r - ((1 / 2) * (1 - t)) * s)),
    [-(t / 8 - 1 / 8) * (s - 1) * (r * (t / 2 - (1 / 2)) - s * (t / 2 - (1 / 2)) + 1) - (t / 2 - (1 / 2)) * (t / 8 - 1 / 8) * (r + 1) * (s - 1),
     (t / 2 - 1 / 2) * (t / 8 - 1 / 8) * (r + 1) * (s - 1) - (t / 8 - 1 / 8) * (r + 1) * (r * (t / 2 - 1 / 2) - s * (t / 2 - 1 / 2) + 1),
     -((r + 1) * (s - 1) * (r * (t / 2 - (1 / 2)) - s * (t / 2 - (1 / 2)) + 1)) / 8 - (r / 2 - s / 2) * (t / 8 - 1 / 8) * (r + 1) * (s - 1)]),
   ((((1 / 2) * (1 - t)) / 4) * ((1 + r) * (1 + s) * (-1 + ((1 / 2) * (1 - t)) * r + ((1 / 2) * (1 - t)) * s)),
    [(t / 8 - 1 / 8) * (s + 1) * (r * (t / 2 - (1 / 2)) + s * (t / 2 - (1 / 2)) + 1) + (t / 2 - (1 / 2)) * (t / 8 - 1 / 8) * (r + 1) * (s + 1),
     (t / 8 - 1 / 8) * (r + 1) * (r * (t / 2 - 1 / 2) + s * (t / 2 - 1 / 2) + 1) + (t / 2 - 1 / 2) * (t / 8 - 1 / 8) * (r + 1) * (s + 1),
     ((r + 1) * (s + 1) * (r * (t / 2 - (1 / 2)) + s * (t / 2 - (1 / 2)) + 1)) / 8 + (r / 2 + s / 2) * (t / 8 - 1 / 8) * (r + 1) * (s + 1)]),
   ((((1 / 2) * (1 - t)) / 4) * ((1 - r) * (1 + s) * (-1 - ((1 / 2) * (1 - t)) * r + ((1 / 2) * (1 - t)) * s)),
    [(t / 2 - (1 / 2)) * (s + 1) * (r - 1) * (t / 8 - 1 / 8) - (t / 8 - 1 / 8) * (s + 1) * (s * (t / 2 - (1 / 2)) - r * (t / 2 - (1 / 2)) + 1),
     -(t / 8 - 1 / 8) * (r - 1) * (s * (t / 2 - 1 / 2) - r * (t / 2 - 1 / 2) + 1) - (t / 2 - 1 / 2) * (t / 8 - 1 / 8) * (r - 1) * (s + 1),
     (r / 2 - s / 2) * (t / 8 - 1 / 8) * (r - 1) * (s + 1) - ((r - 1) * (s + 1) * (s * (t / 2 - (1 / 2)) - r * (t / 2 - (1 / 2)) + 1)) / 8]),
   ((1 - ((1 / 2) * (1 - t))) * (1 - 2 * ((1 / 2) * (1 - t))), [0, 0, t + (1 / 2)]),
   (((((1 / 2) * (1 - t)) * ((1 / 2) * (1 - t))) / 2) * (1 - s) * (1 - r * r),
    [r * ((t / 2 - (1 / 2)) * (t / 2 - (1 / 2))) * (s - 1),
     ((r * r - 1) * (t / 2 - (1 / 2)) * (t / 2 - 1 / 2)) / 2,
     ((r * r - 1) * (t / 2 - (1 / 2)) * (s - 1)) / 2]),
   (((((1 / 2) * (1 - t)) * ((1 / 2) * (1 - t))) / 2) * (1 + r) * (1 - s * s),
    [-((s * s - 1) * (t / 2 - (1 / 2)) * (t / 2 - (1 / 2))) / 2,
     -s * (t / 2 - 1 / 2) * (t / 2 - (1 / 2)) * (r + 1),
     -((s * s - 1) * (t / 2 - (1 / 2)) * (r + 1)) / 2]),
   (((((1 / 2) * (1 - t)) * ((1 / 2) * (1 - t))) / 2) * (1 + s) * (1 - r * r),
    [-r * ((t / 2 - (1 / 2)) * (t / 2 - (1 / 2))) * (s + 1),
     -((r * r - 1) * (t / 2 - (1 / 2)) * (t / 2 - 1 / 2)) / 2,
     -((r * r - 1) * (t / 2 - (1 / 2)) * (s + 1)) / 2]),
   (((((1 / 2) * (1 - t)) * ((1 / 2) * (1 - t))) / 2) * (1 - r) * (1 - s * s),
    [((s * s - 1) * (t / 2 - (1 / 2)) * (t / 2 - (1 / 2))) / 2,
     s * (t / 2 - (1 / 2)) * (t / 2 - (1 / 2)) * (r - 1),
     ((s * s - 1) * (t / 2 - (1 / 2)) * (r - 1)) / 2]),
   (((1 / 2) * (1 - t)) * (1 - ((1 / 2) * (1 - t))) * (1 - r - s + r * s),
    [-(t / 2 - (1 / 2)) * (t / 2 + (1 / 2)) * (s - 1),
     -(t / 2 - (1 / 2)) * (t / 2 + (1 / 2)) * (r - 1),
     ((t / 2 - (1 / 2)) * (r + s - r * s - 1)) / 2 + ((t / 2 + (1 / 2)) * (r + s - r * s - 1)) / 2]),
   (((1 / 2) * (1 - t)) * (1 - ((1 / 2) * (1 - t))) * (1 + r - s - r * s),
    [(t / 2 - (1 / 2)) * (t / 2 + (1 / 2)) * (s - 1),
     (t / 2 - (1 / 2)) * (t / 2 + (1 / 2)) * (r + 1),
     -((t / 2 - (1 / 2)) * (r - s - r * s + 1)) / 2 - ((t / 2 + (1 / 2)) * (r - s - r * s + 1)) / 2]),
   (((1 / 2) * (1 - t)) * (1 - ((1 / 2) * (1 - t))) * (1 + r + s + r * s),
    [-(t / 2 - (1 / 2)) * (t / 2 + (1 / 2)) * (s + 1),
     -(t / 2 - (1 / 2)) * (t / 2 + (1 / 2)) * (r + 1),
     -((t / 2 - (1 / 2)) * (r + s + r * s + 1)) / 2 - ((t / 2 + (1 / 2)) * (r + s + r * s + 1)) / 2]),
   (((1 / 2) * (1 - t)) * (1 - ((1 / 2) * (1 - t))) * (1 - r + s - r * s),
    [(t / 2 - (1 / 2)) * (t / 2 + (1 / 2)) * (s + 1),
     (t / 2 - (1 / 2)) * (t / 2 + (1 / 2)) * (r - 1),
     ((t / 2 - (1 / 2)) * (r - s + r * s - 1)) / 2 + ((t / 2 + (1 / 2)) * (r - s + r * s - 1)) / 2])]

/-- `BaseFunctions<PRISMA6, 9>::set` (basefunctions.h:347-376). -/
def setPrisma6 (r s t : K) : List (K × List K) :=
  [((1 / 2) * ((1 - t) * (1 - r - s)), [t / 2 - 1 / 2, t / 2 - 1 / 2, r / 2 + s / 2 - 1 / 2]),
   ((1 / 2) * ((1 - t) * r), [-t / 2 + 1 / 2, 0, -r / 2]),
   ((1 / 2) * ((1 - t) * s), [0, -t / 2 + 1 / 2, -s / 2]),
   ((1 / 2) * ((1 + t) * (1 - r - s)), [-t / 2 - 1 / 2, -t / 2 - 1 / 2, -r / 2 - s / 2 + 1 / 2]),
   ((1 / 2) * ((1 + t) * r), [t / 2 + 1 / 2, 0, r / 2]),
   ((1 / 2) * ((1 + t) * s), [0, t / 2 + 1 / 2, s / 2])]

/-- `BaseFunctions<PRISMA15, 9>::set` (basefunctions.h:411-476). -/
def setPrisma15 (r s t : K) : List (K × List K) :=
  [(-(1 - r - s) * (1 - t) * (2 * r + 2 * s + t) / 2,
    [-(t - 1) * (r + s - 1) - ((t - 1) * (2 * r + 2 * s + t)) / 2,
     -(t - 1) * (r + s - 1) - ((t - 1) * (2 * r + 2 * s + t)) / 2,
     -((r + s - 1) * (2 * r + 2 * s + t)) / 2 - ((t - 1) * (r + s - 1)) / 2]),
   (r * (1 - t) * (2 * r - t - 2) / 2,
    [((t - 1) * (t - 2 * r + 2)) / 2 - r * (t - 1),
     0,
     (r * (t - 2 * r + 2)) / 2 + (r * (t - 1)) / 2]),
   (s * (1 - t) * (2 * s - t - 2) / 2,
    [0,
     ((t - 1) * (t - 2 * s + 2)) / 2 - s * (t - 1),
     (s * (t - 2 * s + 2)) / 2 + (s * (t - 1)) / 2]),
   (-(1 - r - s) * (1 + t) * (2 * r + 2 * s - t) / 2,
    [((t + 1) * (2 * r + 2 * s - t)) / 2 + (t + 1) * (r + s - 1),
     ((t + 1) * (2 * r + 2 * s - t)) / 2 + (t + 1) * (r + s - 1),
     ((r + s - 1) * (2 * r + 2 * s - t)) / 2 - ((t + 1) * (r + s - 1)) / 2]),
   (r * (t + 1) * (2 * r + t - 2) / 2,
    [r * (t + 1) + ((t + 1) * (2 * r + t - 2)) / 2,
     0,
     (r * (2 * r + t - 2)) / 2 + (r * (t + 1)) / 2]),
   (s * (t + 1) * (2 * s + t - 2) / 2,
    [0,
     s * (t + 1) + ((t + 1) * (2 * s + t - 2)) / 2,
     (s * (2 * s + t - 2)) / 2 + (s * (t + 1)) / 2]),
   (2 * r * (1 - r - s) * (1 - t),
    [2 * (t - 1) * (r + s - 1) + 2 * r * (t - 1),
     2 * r * (t - 1),
     2 * r * (r + s - 1)]),
   (2 * r * s * (1 - t), [(-2) * s * (t - 1), (-2) * r * (t - 1), (-2) * r * s]),
   (2 * s * (1 - r - s) * (1 - t),
    [2 * s * (t - 1),
     2 * (t - 1) * (r + s - 1) + 2 * s * (t - 1),
     2 * s * (r + s - 1)]),
   (2 * r * (1 - r - s) * (1 + t),
    [-2 * (t + 1) * (r + s - 1) - 2 * r * (t + 1),
     (-2) * r * (t + 1),
     (-2) * r * (r + s - 1)]),
   (2 * r * s * (1 + t), [2 * s * (t + 1), 2 * r * (t + 1), 2 * r * s]),
   (2 * s * (1 - r - s) * (1 + t),
    [-2 * s * (t + 1),
     -2 * (t + 1) * (r + s - 1) - 2 * s * (t + 1),
     (-2) * s * (r + s - 1)]),
   ((1 - r - s) * (1 - t * t), [t * t - 1, t * t - 1, 2 * t * (r + s - 1)]),
   (r * (1 - t * t), [1 - t * t, 0, (-2) * r * t]),
   (s * (1 - t * t), [0, 1 - t * t, (-2) * s * t])]

/-- The terms `GaussPointsDegradedSetter<E, 2, 1>::set` adds (basefunctions.h:738-749),
in the order of `n_order`. -/
def terms2x1 (r : K) : List (K × List K) :=
  [((1 / 2) * (1 - r), [(1 / 2) * (-1)]),
   ((1 / 2) * (1 + r), [(1 / 2) * (1)])]

/-- The terms `GaussPointsDegradedSetter<E, 3, 1>::set` adds (basefunctions.h:754-767),
in the order of `n_order`. -/
def terms3x1 (r : K) : List (K × List K) :=
  [((1 / 2) * (1 - r) * (-r), [(1 / 2) * (-1) * (-r) - (1 / 2) * (1 - r)]),
   ((1 / 2) * (1 + r) * (r), [(1 / 2) * (1) * (r) + (1 / 2) * (1 + r)]),
   (1 - r * r, [-2 * r])]

/-- The terms `GaussPointsDegradedSetter<E, 4, 2>::set` adds (basefunctions.h:772-792),
in the order of `n_order`. -/
def terms4x2 (r s : K) : List (K × List K) :=
  [((1 / 4) * (1 - r) * (1 - s), [(1 / 4) * (-1) * (1 - s), (1 / 4) * (1 - r) * (-1)]),
   ((1 / 4) * (1 + r) * (1 - s), [(1 / 4) * (1) * (1 - s), (1 / 4) * (1 + r) * (-1)]),
   ((1 / 4) * (1 + r) * (1 + s), [(1 / 4) * (1) * (1 + s), (1 / 4) * (1 + r) * (1)]),
   ((1 / 4) * (1 - r) * (1 + s), [(1 / 4) * (-1) * (1 + s), (1 / 4) * (1 - r) * (1)])]

/-- The terms `GaussPointsDegradedSetter<E, 8, 2>::set` adds (basefunctions.h:797-829),
in the order of `n_order`. -/
def terms8x2 (r s : K) : List (K × List K) :=
  [((1 / 4) * (1 - r) * (1 - s) * (-r - s - 1),
    [(1 / 4) * (-1) * (1 - s) * (-r - s - 1) - (1 / 4) * (1 - r) * (1 - s),
     (1 / 4) * (1 - r) * (-1) * (-r - s - 1) - (1 / 4) * (1 - r) * (1 - s)]),
   ((1 / 4) * (1 + r) * (1 - s) * (r - s - 1),
    [(1 / 4) * (1) * (1 - s) * (r - s - 1) + (1 / 4) * (1 + r) * (1 - s),
     (1 / 4) * (1 + r) * (-1) * (r - s - 1) - (1 / 4) * (1 + r) * (1 - s)]),
   ((1 / 4) * (1 + r) * (1 + s) * (r + s - 1),
    [(1 / 4) * (1) * (1 + s) * (r + s - 1) + (1 / 4) * (1 + r) * (1 + s),
     (1 / 4) * (1 + r) * (1) * (r + s - 1) + (1 / 4) * (1 + r) * (1 + s)]),
   ((1 / 4) * (1 - r) * (1 + s) * (-r + s - 1),
    [(1 / 4) * (-1) * (1 + s) * (-r + s - 1) - (1 / 4) * (1 - r) * (1 + s),
     (1 / 4) * (1 - r) * (1) * (-r + s - 1) + (1 / 4) * (1 - r) * (1 + s)]),
   ((1 / 2) * (1 - r * r) * (1 - s),
    [(1 / 2) * (-2 * r) * (1 - s),
     (1 / 2) * (1 - r * r) * (-1)]),
   ((1 / 2) * (1 + r) * (1 - s * s), [(1 / 2) * (1) * (1 - s * s), (1 / 2) * (1 + r) * (-2 * s)]),
   ((1 / 2) * (1 - r * r) * (1 + s), [(1 / 2) * (-2 * r) * (1 + s), (1 / 2) * (1 - r * r) * (1)]),
   ((1 / 2) * (1 - r) * (1 - s * s),
    [(1 / 2) * (-1) * (1 - s * s),
     (1 / 2) * (1 - r) * (-2 * s)])]

/-- The terms `GaussPointsDegradedSetter<E, 8, 3>::set` adds (basefunctions.h:834-874),
in the order of `n_order`. -/
def terms8x3 (r s t : K) : List (K × List K) :=
  [((1 / 8) * (1 - r) * (1 - s) * (1 - t),
    [(1 / 8) * (-1) * (1 - s) * (1 - t),
     (1 / 8) * (1 - r) * (-1) * (1 - t),
     (1 / 8) * (1 - r) * (1 - s) * (-1)]),
   ((1 / 8) * (1 + r) * (1 - s) * (1 - t),
    [(1 / 8) * (1) * (1 - s) * (1 - t),
     (1 / 8) * (1 + r) * (-1) * (1 - t),
     (1 / 8) * (1 + r) * (1 - s) * (-1)]),
   ((1 / 8) * (1 + r) * (1 + s) * (1 - t),
    [(1 / 8) * (1) * (1 + s) * (1 - t),
     (1 / 8) * (1 + r) * (1) * (1 - t),
     (1 / 8) * (1 + r) * (1 + s) * (-1)]),
   ((1 / 8) * (1 - r) * (1 + s) * (1 - t),
    [(1 / 8) * (-1) * (1 + s) * (1 - t),
     (1 / 8) * (1 - r) * (1) * (1 - t),
     (1 / 8) * (1 - r) * (1 + s) * (-1)]),
   ((1 / 8) * (1 - r) * (1 - s) * (1 + t),
    [(1 / 8) * (-1) * (1 - s) * (1 + t),
     (1 / 8) * (1 - r) * (-1) * (1 + t),
     (1 / 8) * (1 - r) * (1 - s) * (1)]),
   ((1 / 8) * (1 + r) * (1 - s) * (1 + t),
    [(1 / 8) * (1) * (1 - s) * (1 + t),
     (1 / 8) * (1 + r) * (-1) * (1 + t),
     (1 / 8) * (1 + r) * (1 - s) * (1)]),
   ((1 / 8) * (1 + r) * (1 + s) * (1 + t),
    [(1 / 8) * (1) * (1 + s) * (1 + t),
     (1 / 8) * (1 + r) * (1) * (1 + t),
     (1 / 8) * (1 + r) * (1 + s) * (1)]),
   ((1 / 8) * (1 - r) * (1 + s) * (1 + t),
    [(1 / 8) * (-1) * (1 + s) * (1 + t),
     (1 / 8) * (1 - r) * (1) * (1 + t),
     (1 / 8) * (1 - r) * (1 + s) * (1)])]

/-- The terms `GaussPointsDegradedSetter<E, 20, 3>::set` adds (basefunctions.h:879-968),
in the order of `n_order`. -/
def terms20x3 (r s t : K) : List (K × List K) :=
  [((1 / 8) * (1 - r) * (1 - s) * (1 - t) * (-r - s - t - 2),
    [(1 / 8) * (-1) * (1 - s) * (1 - t) * (-r - s - t - 2) - (1 / 8) * (1 - r) * (1 - s) * (1 - t),
     (1 / 8) * (1 - r) * (-1) * (1 - t) * (-r - s - t - 2) - (1 / 8) * (1 - r) * (1 - s) * (1 - t),
     (1 / 8) * (1 - r) * (1 - s) * (-1) * (-r - s - t - 2) - (1 / 8) * (1 - r) * (1 - s) * (1 - t)]),
   ((1 / 8) * (1 + r) * (1 - s) * (1 - t) * (r - s - t - 2),
    [(1 / 8) * (1) * (1 - s) * (1 - t) * (r - s - t - 2) + (1 / 8) * (1 + r) * (1 - s) * (1 - t),
     (1 / 8) * (1 + r) * (-1) * (1 - t) * (r - s - t - 2) - (1 / 8) * (1 + r) * (1 - s) * (1 - t),
     (1 / 8) * (1 + r) * (1 - s) * (-1) * (r - s - t - 2) - (1 / 8) * (1 + r) * (1 - s) * (1 - t)]),
   ((1 / 8) * (1 + r) * (1 + s) * (1 - t) * (r + s - t - 2),
    [(1 / 8) * (1) * (1 + s) * (1 - t) * (r + s - t - 2) + (1 / 8) * (1 + r) * (1 + s) * (1 - t),
     (1 / 8) * (1 + r) * (1) * (1 - t) * (r + s - t - 2) + (1 / 8) * (1 + r) * (1 + s) * (1 - t),
     (1 / 8) * (1 + r) * (1 + s) * (-1) * (r + s - t - 2) - (1 / 8) * (1 + r) * (1 + s) * (1 - t)]),
   ((1 / 8) * (1 - r) * (1 + s) * (1 - t) * (-r + s - t - 2),
    [(1 / 8) * (-1) * (1 + s) * (1 - t) * (-r + s - t - 2) - (1 / 8) * (1 - r) * (1 + s) * (1 - t),
     (1 / 8) * (1 - r) * (1) * (1 - t) * (-r + s - t - 2) + (1 / 8) * (1 - r) * (1 + s) * (1 - t),
     (1 / 8) * (1 - r) * (1 + s) * (-1) * (-r + s - t - 2) - (1 / 8) * (1 - r) * (1 + s) * (1 - t)]),
   ((1 / 8) * (1 - r) * (1 - s) * (1 + t) * (-r - s + t - 2),
    [(1 / 8) * (-1) * (1 - s) * (1 + t) * (-r - s + t - 2) - (1 / 8) * (1 - r) * (1 - s) * (1 + t),
     (1 / 8) * (1 - r) * (-1) * (1 + t) * (-r - s + t - 2) - (1 / 8) * (1 - r) * (1 - s) * (1 + t),
     (1 / 8) * (1 - r) * (1 - s) * (1) * (-r - s + t - 2) + (1 / 8) * (1 - r) * (1 - s) * (1 + t)]),
   ((1 / 8) * (1 + r) * (1 - s) * (1 + t) * (r - s + t - 2),
    [(1 / 8) * (1) * (1 - s) * (1 + t) * (r - s + t - 2) + (1 / 8) * (1 + r) * (1 - s) * (1 + t),
     (1 / 8) * (1 + r) * (-1) * (1 + t) * (r - s + t - 2) - (1 / 8) * (1 + r) * (1 - s) * (1 + t),
     (1 / 8) * (1 + r) * (1 - s) * (1) * (r - s + t - 2) + (1 / 8) * (1 + r) * (1 - s) * (1 + t)]),
   ((1 / 8) * (1 + r) * (1 + s) * (1 + t) * (r + s + t - 2),
    [(1 / 8) * (1) * (1 + s) * (1 + t) * (r + s + t - 2) + (1 / 8) * (1 + r) * (1 + s) * (1 + t),
     (1 / 8) * (1 + r) * (1) * (1 + t) * (r + s + t - 2) + (1 / 8) * (1 + r) * (1 + s) * (1 + t),
     (1 / 8) * (1 + r) * (1 + s) * (1) * (r + s + t - 2) + (1 / 8) * (1 + r) * (1 + s) * (1 + t)]),
   ((1 / 8) * (1 - r) * (1 + s) * (1 + t) * (-r + s + t - 2),
    [(1 / 8) * (-1) * (1 + s) * (1 + t) * (-r + s + t - 2) - (1 / 8) * (1 - r) * (1 + s) * (1 + t),
     (1 / 8) * (1 - r) * (1) * (1 + t) * (-r + s + t - 2) + (1 / 8) * (1 - r) * (1 + s) * (1 + t),
     (1 / 8) * (1 - r) * (1 + s) * (1) * (-r + s + t - 2) + (1 / 8) * (1 - r) * (1 + s) * (1 + t)]),
   ((1 / 4) * (1 - r * r) * (1 - s) * (1 - t),
    [(1 / 4) * (-2 * r) * (1 - s) * (1 - t),
     (1 / 4) * (1 - r * r) * (-1) * (1 - t),
     (1 / 4) * (1 - r * r) * (1 - s) * (-1)]),
   ((1 / 4) * (1 + r) * (1 - s * s) * (1 - t),
    [(1 / 4) * (1) * (1 - s * s) * (1 - t),
     (1 / 4) * (1 + r) * (-2 * s) * (1 - t),
     (1 / 4) * (1 + r) * (1 - s * s) * (-1)]),
   ((1 / 4) * (1 - r * r) * (1 + s) * (1 - t),
    [(1 / 4) * (-2 * r) * (1 + s) * (1 - t),
     (1 / 4) * (1 - r * r) * (1) * (1 - t),
     (1 / 4) * (1 - r * r) * (1 + s) * (-1)]),
   ((1 / 4) * (1 - r) * (1 - s * s) * (1 - t),
    [(1 / 4) * (-1) * (1 - s * s) * (1 - t),
     (1 / 4) * (1 - r) * (-2 * s) * (1 - t),
     (1 / 4) * (1 - r) * (1 - s * s) * (-1)]),
   ((1 / 4) * (1 - r * r) * (1 - s) * (1 + t),
    [(1 / 4) * (-2 * r) * (1 - s) * (1 + t),
     (1 / 4) * (1 - r * r) * (-1) * (1 + t),
     (1 / 4) * (1 - r * r) * (1 - s) * (1)]),
   ((1 / 4) * (1 + r) * (1 - s * s) * (1 + t),
    [(1 / 4) * (1) * (1 - s * s) * (1 + t),
     (1 / 4) * (1 + r) * (-2 * s) * (1 + t),
     (1 / 4) * (1 + r) * (1 - s * s) * (1)]),
   ((1 / 4) * (1 - r * r) * (1 + s) * (1 + t),
    [(1 / 4) * (-2 * r) * (1 + s) * (1 + t),
     (1 / 4) * (1 - r * r) * (1) * (1 + t),
     (1 / 4) * (1 - r * r) * (1 + s) * (1)]),
   ((1 / 4) * (1 - r) * (1 - s * s) * (1 + t),
    [(1 / 4) * (-1) * (1 - s * s) * (1 + t),
     (1 / 4) * (1 - r) * (-2 * s) * (1 + t),
     (1 / 4) * (1 - r) * (1 - s * s) * (1)]),
   ((1 / 4) * (1 - r) * (1 - s) * (1 - t * t),
    [(1 / 4) * (-1) * (1 - s) * (1 - t * t),
     (1 / 4) * (1 - r) * (-1) * (1 - t * t),
     (1 / 4) * (1 - r) * (1 - s) * (-2 * t)]),
   ((1 / 4) * (1 + r) * (1 - s) * (1 - t * t),
    [(1 / 4) * (1) * (1 - s) * (1 - t * t),
     (1 / 4) * (1 + r) * (-1) * (1 - t * t),
     (1 / 4) * (1 + r) * (1 - s) * (-2 * t)]),
   ((1 / 4) * (1 + r) * (1 + s) * (1 - t * t),
    [(1 / 4) * (1) * (1 + s) * (1 - t * t),
     (1 / 4) * (1 + r) * (1) * (1 - t * t),
     (1 / 4) * (1 + r) * (1 + s) * (-2 * t)]),
   ((1 / 4) * (1 - r) * (1 + s) * (1 - t * t),
    [(1 / 4) * (-1) * (1 + s) * (1 - t * t),
     (1 / 4) * (1 - r) * (1) * (1 - t * t),
     (1 / 4) * (1 - r) * (1 + s) * (-2 * t)])]

/-- `N[E::n_order[k]] += value; dN[E::n_order[k]][d] += derivative` for one `k`. -/
def addTerm (tab : List (K × List K)) (x : Nat × (K × List K)) : Option (List (K × List K)) := do
  let old ← tab[x.1]?
  wr tab x.1 (old.1 + x.2.1, List.zipWith (· + ·) old.2 x.2.2)

/-- The body of `GaussPointsDegradedSetter::set`: the zeros (basefunctions.h:740-742 and the other setters), then all terms. -/
def degrade (nodes dim : Nat) (order : List Nat) (terms : List (K × List K)) : Option (List (K × List K)) :=
  (order.zip terms).foldlM addTerm (List.replicate nodes (0, List.replicate dim 0))

/-- The base class `GaussPointsDegraded<…, nodes, dim>` of the code (basefunctions.h:651-734): the setter it selects. -/
def degradedTerms : Code → List K → Option (List (K × List K))
  | .line2, [r] => some (terms2x1 r)
  | .line3, [r] => some (terms3x1 r)
  | .triangle3, [r, s] => some (terms4x2 r s)
  | .square4, [r, s] => some (terms4x2 r s)
  | .triangle6, [r, s] => some (terms8x2 r s)
  | .square8, [r, s] => some (terms8x2 r s)
  | .tetra4, [r, s, t] => some (terms8x3 r s t)
  | .pyramid5, [r, s, t] => some (terms8x3 r s t)
  | .prisma6, [r, s, t] => some (terms8x3 r s t)
  | .hexa8, [r, s, t] => some (terms8x3 r s t)
  | .tetra10, [r, s, t] => some (terms20x3 r s t)
  | .pyramid13, [r, s, t] => some (terms20x3 r s t)
  | .prisma15, [r, s, t] => some (terms20x3 r s t)
  | .hexa20, [r, s, t] => some (terms20x3 r s t)
  | _, _ => none

/-- `BaseFunctions<code, gps>::set`: the full specialisations (basefunctions.h:14, 52, 102, 149, 244, 343, 407), otherwise the degraded element. -/
def setAt (c : Code) (gps : Nat) (p : List K) : Option (List (K × List K)) :=
  match c, gps, p with
  | .triangle3, 6, [r, s] => some (setTriangle3 r s)
  | .triangle6, 6, [r, s] => some (setTriangle6 r s)
  | .tetra4, 4, [r, s, t] => some (setTetra4 r s t)
  | .tetra10, 15, [r, s, t] => some (setTetra10 r s t)
  | .pyramid13, 14, [r, s, t] => some (setPyramid13 r s t)
  | .prisma6, 9, [r, s, t] => some (setPrisma6 r s t)
  | .prisma15, 9, [r, s, t] => some (setPrisma15 r s t)
  | c, _, p => do degrade (nodes c) (edim c) (nOrder c) (← degradedTerms c p)

/-- The points of the nodes of a degraded line (basefunctions.h:982-986): `nn[n]` for `n < nodes`. -/
def corner1 (n : Nat) : List (List K) := ([[-1], [1], [0]] : List (List K)).take n

/-- The points of a degraded square (basefunctions.h:1003-1014), the first four for four terms. -/
def corner2 (n : Nat) : List (List K) :=
  List.take n
  [[-1, -1], [1, -1], [1, 1], [-1, 1], [0, -1], [1, 0], [0, 1], [-1, 0]]

/-- The points of a degraded hexahedron (basefunctions.h:1033-1057), the first eight for eight terms. -/
def corner3 (n : Nat) : List (List K) :=
  List.take n
  [[-1, -1, -1], [1, -1, -1], [1, 1, -1], [-1, 1, -1], [-1, -1, 1], [1, -1, 1], [1, 1, 1],
   [-1, 1, 1], [0, -1, -1], [1, 0, -1], [0, 1, -1], [-1, 0, -1], [0, -1, 1], [1, 0, 1],
   [0, 1, 1], [-1, 0, 1], [-1, -1, 0], [1, -1, 0], [1, 1, 0], [-1, 1, 0]]

/-- The calls `set(element.NN[row], element.dNN[row], point)` of `simd`: rows and points, in the order of the calls. -/
def nodeCalls (c : Code) (gps : Nat) : List (Nat × List K) :=
  match c, gps with
  -- basefunctions.h:45-48
  | .triangle3, 6 =>
    (List.range 3).zip
    [[0, 0], [0, 1], [1, 0]]
  -- basefunctions.h:92-98
  | .triangle6, 6 =>
    (List.range 6).zip
    [[0, 0], [1, 0], [0, 1], [(1 / 2), 0], [(1 / 2), (1 / 2)], [0, (1 / 2)]]
  -- basefunctions.h:141-145
  | .tetra4, 4 =>
    (List.range 4).zip
    [[1, 0, 0], [0, 1, 0], [0, 0, 1], [0, 0, 0]]
  -- basefunctions.h:229-240
  | .tetra10, 15 =>
    (List.range 10).zip
    [[1, 0, 0], [0, 1, 0], [0, 0, 1], [0, 0, 0], [(1 / 2), (1 / 2), 0], [0, (1 / 2), (1 / 2)],
     [(1 / 2), 0, (1 / 2)], [(1 / 2), 0, 0], [0, (1 / 2), 0], [0, 0, (1 / 2)]]
  -- basefunctions.h:325-339
  | .pyramid13, 14 =>
    (List.range 13).zip
    [[-1, -1, -1], [1, -1, -1], [1, 1, -1], [-1, 1, -1], [0, 0, 1], [0, -1, -1], [1, 0, -1],
     [0, 1, -1], [-1, 0, -1], [-1, -1, 0], [1, -1, 0], [1, 1, 0], [-1, 1, 0]]
  -- basefunctions.h:397-403
  | .prisma6, 9 =>
    (List.range 6).zip
    [[0, 0, -1], [1, 0, -1], [0, 1, -1], [0, 0, 1], [1, 0, 1], [0, 1, 1]]
  -- basefunctions.h:497-513
  | .prisma15, 9 =>
    (List.range 15).zip
    [[0, 0, -1], [1, 0, -1], [0, 1, -1], [0, 0, 1], [1, 0, 1], [0, 1, 1], [(1 / 2), 0, -1],
     [(1 / 2), (1 / 2), -1], [0, (1 / 2), -1], [(1 / 2), 0, 1], [(1 / 2), (1 / 2), 1],
     [0, (1 / 2), 1], [0, 0, 0], [1, 0, 0], [0, 1, 0]]
  | c, _ =>
    match edim c with
    | 1 => (List.range (nOrder c).length).zip (corner1 (nOrder c).length)
    | 2 => (nOrder c).zip (corner2 (nOrder c).length)
    | _ => (nOrder c).zip (corner3 (nOrder c).length)

/-- `element.NN` and `element.dNN` after `simd`: the rows that were set, `none` for an uninitialised one. -/
def nodeTables (c : Code) (gps : Nat) : Option (List (Option (List (K × List K)))) :=
  (nodeCalls c gps).foldlM (fun NN x => do wr NN x.1 (some (← setAt c gps x.2))) (List.replicate (nodes c) none)

end Verif.Fem
