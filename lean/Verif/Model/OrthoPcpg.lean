import Verif.Model.FetiSolve
/-!
The orthogonalized conjugate projected gradients: `OrthogonalizedPCPG::solve` (`src/feti/iterativesolver/orthopcpg.cpp` 61-138), `Matrix_Dual_Orthogonal` (`src/feti/common/matrix_dual_orthogonal.h`) and
`Matrix_Dual::resize` (`matrix_dual.h` 31-36); first on vectors of all multipliers, then as a program of one process.

Simplifications: as in `Model/Pcpg` and `Model/FetiSolve`; a division by zero ends with `none`; the contents of allocated memory are given by `fresh`; `MPI_Allreduce` is a program given by its contract;
the integers do not overflow.
-/
namespace Verif.Pcpg

open Verif.Feti (divide)

variable {K V : Type} [Field K] [AddCommGroup V] [Module K V]

/-- The variables between two iterations; `ps` are the directions `p_i` with `F p_i` and `(p_i, F p_i)`. -/
structure OState (K V : Type) where
  x : V
  r : V
  w : V
  p : V
  yw : K
  ps : List (V × V × K)

/-- The initialization (69-86). -/
def ostart (o : Ops K V) : OState K V :=
  let r := (-1 : K) • o.F o.l + (1 : K) • o.d
  let w := o.Pt r
  let y := o.P (o.S w)
  { x := o.l, r := r, w := w, p := y, yw := o.dot y w, ps := [] }

/-- The new direction (117-126). -/
def odirection [DecidableEq K] (o : Ops K V) (y : V) (ps : List (V × V × K)) : Option V := do
  let c ← ps.mapM fun q => divide (o.dot y q.2.1) (-q.2.2)
  some ((List.zipWith (fun a q => a • q.1) c ps).sum + (1 : K) • y)

/-- The body of the loop (93-131) without the check. -/
def ostep [DecidableEq K] (o : Ops K V) (s : OState K V) : Option (OState K V) := do
  let Fp := o.F s.p
  let pFp := o.dot s.p Fp
  let gamma ← divide s.yw pFp
  let x := s.x + gamma • s.p
  let r := s.r + (-gamma) • Fp
  let w := o.Pt r
  let y := o.P (o.S w)
  let ps := s.ps ++ [(s.p, Fp, pFp)]
  let p ← odirection o y ps
  some { x := x, r := r, w := w, p := p, yw := o.dot y w, ps := ps }

/-- The loop (92-133); `none`: not finished within `fuel` steps or a division by zero. -/
def oloop [LinearOrder K] (o : Ops K V) (cfg : Config K) : Nat → OState K V → Info K → Option (OState K V × Info K)
  | 0, s, info => if info.converged then some (s, info) else none
  | fuel + 1, s, info =>
      if info.converged then some (s, info)
      else do
        let n ← ostep o s
        let info ← updateInfo cfg info (some s.yw)
        oloop o cfg fuel n info

/-- `OrthogonalizedPCPG::solve`. -/
def osolve [LinearOrder K] (o : Ops K V) (cfg : Config K) (fuel : Nat) : Option (OState K V × Info K) := oloop o cfg fuel (ostart o) (setInfo cfg (some (ostart o).yw))

end Verif.Pcpg

namespace Verif.Feti

open Verif.Csx Verif.Mpi Verif.Comm

variable {K : Type} [Field K]

/-- `Matrix_Dual_Orthogonal`: `alloc` is `_allocated.nrows`. -/
structure DualMatrix (K : Type) where
  vals : List K
  nrows : Nat
  ncols : Nat
  alloc : Nat

namespace DualMatrix

/-- `Matrix_Dual::resize()` (`matrix_dual.h` 31-36, `matrix_dense.h` realloc): the block is kept if it is large enough. -/
def resize (fresh : Nat → K) (m : DualMatrix K) (size : Nat) : DualMatrix K :=
  { vals := if m.vals.length < 32 * size then (List.range (32 * size)).map fresh else m.vals, nrows := 0, ncols := size, alloc := 32 }

/-- `next` (`matrix_dual_orthogonal.h` 20-32): the matrix and the offset of the new row. -/
def next (fresh : Nat → K) (m : DualMatrix K) : Option (DualMatrix K × Nat) := do
  let m ← (if m.nrows = m.alloc then do
    let old ← memcpyFrom m.vals 0 (m.nrows * m.ncols)
    let vals ← memcpyTo ((List.range (2 * m.nrows * m.ncols)).map fresh) 0 old
    some { vals := vals, nrows := m.nrows, ncols := m.ncols, alloc := 2 * m.nrows : DualMatrix K }
  else some m)
  some ({ m with nrows := m.nrows + 1 }, m.ncols * m.nrows)

/-- The vector of a row returned by `next`. -/
def row (m : DualMatrix K) (off : Nat) : Option (List K) := memcpyFrom m.vals off m.ncols

/-- Writing this vector. -/
def setRow (m : DualMatrix K) (off : Nat) (v : List K) : Option (DualMatrix K) := do
  let vals ← memcpyTo m.vals off v
  some { m with vals := vals }

/-- `cblas_dgemv` by rows with `alpha = 1` and `beta = 0` (`w.blas.cpp` 77); the reference implementation returns at once if there are no rows or no columns. -/
def gemv (vals : List K) (off rows cols ld : Nat) (x : List K) (xoff : Nat) (y : List K) : Option (List K) :=
  if rows = 0 ∨ cols = 0 then some y
  else forLoop 0 rows y fun r y => do
    let v ← forLoop 0 cols 0 fun k s => do
      let a ← vals[off + r * ld + k]?
      let b ← x[xoff + k]?
      some (s + a * b)
    wr y r v

/-- The same with the transposed matrix (`w.blas.cpp` 116). -/
def gemvT (vals : List K) (rows cols ld : Nat) (x : List K) (y : List K) : Option (List K) :=
  if rows = 0 ∨ cols = 0 then some y
  else forLoop 0 cols y fun k y => do
    let v ← forLoop 0 rows 0 fun r s => do
      let a ← vals[r * ld + k]?
      let b ← x[r]?
      some (s + a * b)
    wr y k v

/-- The local part of `apply` (`matrix_dual_orthogonal.h` 34-42, `slice.h`: the end 0 of a slice is the number of columns): every interval overwrites `y`. -/
def applyLocal (m : DualMatrix K) (li : List (Nat × Nat)) (x y : List K) : Option (List K) :=
  li.foldlM (fun y iv => gemv m.vals iv.1 m.nrows ((if iv.2 = 0 then m.ncols else iv.2) - iv.1) m.ncols x iv.1 y) y

/-- `applyT` (46-53) to a row of the matrix itself. -/
def applyT (m : DualMatrix K) (x : List K) (off : Nat) : Option (DualMatrix K) := do
  let y ← m.row off
  let y ← gemvT m.vals x.length m.ncols m.ncols x y
  m.setRow off y

end DualMatrix

/-- `for (i = 0; i < yFp.size(); ++i) { yFp[i] /= -pFp[i]; }` (`orthopcpg.cpp` 120-122). -/
def divideAll [DecidableEq K] (y pFp : List K) : Option (List K) :=
  forLoop 0 y.length y fun i y => do
    let a ← y[i]?
    let b ← pFp[i]?
    let v ← divide a (-b)
    wr y i v

/-- The members `pi`, `Fpi`, `yFp` and `pFp` of `OrthogonalizedPCPG` (`orthopcpg.h`); `off` is the row of the current direction. -/
structure OrthoData (K : Type) where
  pi : DualMatrix K
  Fpi : DualMatrix K
  yFp : List K
  pFp : List K
  off : Nat

/-- `update` (`orthopcpg.h` 16-20): the vectors `yFp` and `pFp` are kept. -/
def OrthoData.update (fresh : Nat → K) (O : OrthoData K) (size : Nat) : OrthoData K := { O with pi := O.pi.resize fresh size, Fpi := O.Fpi.resize fresh size }

/-- The new direction from the products `c` of all processes (`orthopcpg.cpp` 120-126). -/
def OrthoData.direction [DecidableEq K] (fresh : Nat → K) (O : OrthoData K) (Fpi : DualMatrix K) (pFp c y : List K) : Option (OrthoData K) := do
  let c ← divideAll c pFp
  let n ← O.pi.next fresh
  let pi ← n.1.applyT c n.2
  let p ← pi.row n.2
  let p ← addScaled p 1 y
  let pi ← pi.setRow n.2 p
  some ⟨pi, Fpi, c, pFp, n.2⟩

namespace Process

/-- The initialization (`orthopcpg.cpp` 67-86). -/
def obegin (A : Process K) (fresh : Nat → K) (s : Scratch K) (O : OrthoData K) (d e l : List K) (v : Vectors K) : Prog (List K) (Option (((Vectors K × K) × OrthoData K) × Scratch K)) :=
  orFail (O.pi.next fresh) fun n =>
    orFail (n.1.row n.2) fun p =>
      andThen (A.begin s d e l { v with p := p }) fun b =>
        orFail (n.1.setRow n.2 b.1.1.p) fun pi => .ret (some ((b.1, { O with pi := pi, off := n.2 }), b.2))

/-- The body of the loop without the check (93-131). -/
def ostep [DecidableEq K] (A : Process K) (fresh : Nat → K) (reduceAll : List K → Prog (List K) (Option (List K))) (s : Scratch K) (O : OrthoData K) (v : Vectors K) (yw : K) :
    Prog (List K) (Option (((Vectors K × K) × OrthoData K) × Scratch K)) :=
  orFail (O.Fpi.next fresh) fun f =>
    orFail (O.pi.row O.off) fun p =>
      orFail (f.1.row f.2) fun Fp =>
        andThen (A.applyF s p Fp) fun Fp =>
          orFail (f.1.setRow f.2 Fp.1) fun Fpi =>
            andThen (A.dot p Fp.1) fun pFp =>
              orFail (divide yw pFp) fun gamma =>
                orFail (addScaled v.x gamma p) fun x =>
                  orFail (addScaled v.r (-gamma) Fp.1) fun r =>
                    andThen (A.precondition Fp.2 r v.w v.z v.y) fun q =>
                      orFail (Fpi.applyLocal A.projector.li q.1.2.2 (O.yFp ++ [0])) fun c =>
                        andThen (reduceAll c) fun c =>
                          orFail (O.direction fresh Fpi (O.pFp ++ [pFp]) c q.1.2.2) fun O =>
                            andThen (A.dot q.1.2.2 q.1.1) fun yw' => .ret (some (((⟨x, r, q.1.1, q.1.2.2, q.1.2.1, v.p, v.Fp⟩, yw'), O), q.2))

/-- The loop (92-133). -/
def oloop [LinearOrder K] (A : Process K) (fresh : Nat → K) (reduceAll : List K → Prog (List K) (Option (List K))) (cfg : Pcpg.Config K) :
    Nat → Scratch K → OrthoData K → Vectors K → K → Pcpg.Info K → Prog (List K) (Option (((Vectors K × Pcpg.Info K) × OrthoData K) × Scratch K))
  | 0, s, O, v, _, info => if info.converged then .ret (some (((v, info), O), s)) else .ret none
  | fuel + 1, s, O, v, yw, info =>
      if info.converged then .ret (some (((v, info), O), s))
      else andThen (A.ostep fresh reduceAll s O v yw) fun n => orFail (Pcpg.updateInfo cfg info (some yw)) fun info => oloop A fresh reduceAll cfg fuel n.2 n.1.2 n.1.1.1 n.1.1.2 info

/-- The right-hand sides and `OrthogonalizedPCPG::solve`; the second part of the result are the members after the call. -/
def orun [LinearOrder K] (A : Process K) (fresh : Nat → K) (reduceAll : List K → Prog (List K) (Option (List K))) (cfg : Pcpg.Config K) (fuel : Nat) (O : OrthoData K) (m : Memory K) :
    Prog (List K) (Option (Result K × OrthoData K)) :=
  andThen (A.rhs m.s m.d) fun d =>
    andThen (A.kernelSide m.e) fun e =>
      andThen (A.obegin fresh d.2 O d.1 e m.l m.v) fun b =>
        andThen (A.oloop fresh reduceAll cfg fuel b.2 b.1.2 b.1.1.1 b.1.1.2 (Pcpg.setInfo cfg (some b.1.1.2))) fun n =>
          andThen (A.reconstruct n.2 n.1.1.1.x n.1.1.1.r m.iKfBtL m.BtL m.Ra m.x) fun u => .ret (some (⟨u.1, u.2, n.1.1.1.x, n.1.1.2⟩, n.1.2))

end Process

end Verif.Feti
