import Mathlib.Algebra.Field.Defs
/-!
Copies with a selection (`src/analysis/math/selection.h`, `src/analysis/math/math.physics.h`) and the system of the harmonic analysis
(`src/analysis/physics/structuralmechanics.harmonic.real.linear.cpp`).

A matrix in CSR is addressed by the row and the position within the row.  The code addresses `vals[rows[r] + c]`; a position outside the row is reported as `none` here
(the code reaches the next rows or leaves the array).
-/
namespace Verif.Harmonic

variable {K : Type} [Field K]

/-- `selection.h` 5-12. -/
structure Sel where
  offset : Nat
  size : Nat
  step : Nat
  deriving DecidableEq

/-- `Selection()` (8). -/
def Sel.all : Sel := ⟨0, 1, 1⟩

/-- `step * (r / size) + offset + r % size` (e.g. `math.physics.h` 19). -/
def Sel.target (s : Sel) (r : Nat) : Nat := s.step * (r / s.size) + s.offset + r % s.size

/-- The sizes of a matrix and of its rows. -/
structure Shape where
  nrows : Nat
  ncols : Nat
  len : Nat → Nat

/-- The values of a matrix at (row, position). -/
abbrev Vals (K : Type) := Nat × Nat → K

/-- The order of the loops in 17-18 and 25-26. -/
def Shape.places (s : Shape) : List (Nat × Nat) := (List.range s.nrows).flatMap fun r => (List.range (s.len r)).map fun c => (r, c)

def Shape.has (s : Shape) (q : Nat × Nat) : Bool := q.1 < s.nrows && q.2 < s.len q.1

def put (x : Vals K) (q : Nat × Nat) (v : K) : Vals K := fun p => if p = q then v else x p

/-- `math.physics.h` 17-23, 125-131: the smaller matrix `y` into the larger one. -/
def scatter (op : K → K → K) (rows cols : Sel) (sx sy : Shape) (x y : Vals K) : Option (Vals K) :=
  sy.places.foldlM (fun x p => let q := (rows.target p.1, cols.target p.2); if sx.has q then some (put x q (op (x q) (y p))) else none) x

/-- `math.physics.h` 25-31, 133-139: a part of the larger matrix `y` into the smaller one. -/
def gather (op : K → K → K) (rows cols : Sel) (sx sy : Shape) (x y : Vals K) : Option (Vals K) :=
  sx.places.foldlM (fun x p => let q := (rows.target p.1, cols.target p.2); if sy.has q then some (put x p (op (x p) (y q))) else none) x

/-- `math.physics.h` 11-34. -/
def copyMatrix (rows cols : Sel) (sx sy : Shape) (x y : Vals K) : Option (Vals K) :=
  if rows = Sel.all ∧ cols = Sel.all then some y
  else if sy.nrows < sx.nrows ∨ sy.ncols < sx.ncols then scatter (fun _ v => v) rows cols sx sy x y
  else gather (fun _ v => v) rows cols sx sy x y

/-- `math.physics.h` 119-142. -/
def addMatrix (alpha : K) (rows cols : Sel) (sx sy : Shape) (x y : Vals K) : Option (Vals K) :=
  if rows = Sel.all ∧ cols = Sel.all then some fun p => x p + alpha * y p
  else if sy.nrows < sx.nrows ∨ sy.ncols < sx.ncols then scatter (fun o v => o + alpha * v) rows cols sx sy x y
  else gather (fun o v => o * (alpha * v)) rows cols sx sy x y

/-- `math.physics.h` 36-53: dense vectors of the sizes `nx` and `ny`. -/
def copyVector (rows : Sel) (nx ny : Nat) (x y : Nat → K) : Option (Nat → K) :=
  if rows = Sel.all then some y
  else if ny < nx then (List.range ny).foldlM (fun x r => if rows.target r < nx then some (fun p => if p = rows.target r then y r else x p) else none) x
  else (List.range nx).foldlM (fun x r => if rows.target r < ny then some (fun p => if p = r then y (rows.target r) else x p) else none) x

/-- The pattern of the direct solvers (`pattern/matrix.uniform.direct.cpp` 186-197): each row of the node `n` has `d` columns for each neighbour. -/
def blockShape (d N : Nat) (nbrs : Nat → List Nat) : Shape := ⟨d * N, d * N, fun r => d * (nbrs (r / d)).length⟩

/-- `pattern.column` of the same place (191-193). -/
def column (d : Nat) (nbrs : Nat → List Nat) (p : Nat × Nat) : Nat := (nbrs (p.1 / d)).getD (p.2 / d) 0 * d + p.2 % d

/-- `structuralmechanics.harmonic.real.linear.cpp` 105-106. -/
def re (d : Nat) : Sel := ⟨0, d, 2 * d⟩

def im (d : Nat) : Sel := ⟨d, d, 2 * d⟩

/-- 121-123: the matrix of the frequency `w`; `sA` and `sK` are the patterns of the solver and of the assembler. -/
def harmonicMatrix (d : Nat) (sA sK : Shape) (w : K) (K' M : Vals K) : Option (Vals K) := do
  let A ← copyMatrix (re d) (re d) sA sK (fun _ => 0) K'
  let A ← addMatrix (-w * w) (re d) (re d) sA sK A M
  let A ← copyMatrix (im d) (im d) sA sK A K'
  addMatrix (-w * w) (im d) (im d) sA sK A M

/-- 125-126; `b` is the previous content. -/
def harmonicRhs (d N : Nat) (b fre fim : Nat → K) : Option (Nat → K) := do
  let b ← copyVector (re d) (2 * d * N) (d * N) b fre
  copyVector (im d) (2 * d * N) (d * N) b fim

/-- 139-140: the parts of the solution. -/
def harmonicParts (d N : Nat) (x : Nat → K) : Option ((Nat → K) × (Nat → K)) := do
  let r ← copyVector (re d) (d * N) (2 * d * N) (fun _ => 0) x
  let i ← copyVector (im d) (d * N) (2 * d * N) (fun _ => 0) x
  some (r, i)

/-- 86-90, 147: the frequencies of the samples. -/
def frequencies (lo hi : K) (num : Nat) : Nat → K
  | 0 => lo
  | i + 1 => frequencies lo hi num i + (hi - lo) / num

end Verif.Harmonic
