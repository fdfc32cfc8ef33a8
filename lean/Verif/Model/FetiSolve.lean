import Verif.Model.DualOperator
import Verif.Model.Projector
import Verif.Model.Pcpg
/-!
The FETI solver on one process: the part of `update` with the right-hand sides (`totalfeti.implicit.cpp` 105-108, `tfeti.orthogonal.symmetric.cpp` 69-76), `PCPG::solve` (`iterativesolver/pcpg.cpp`
66-151) and `reconstructSolution` (`iterativesolver.cpp` 44-58) as programs with communication; `EmptyPreconditioner::apply`.

Simplifications: values are from a field, a division by zero ends with `none` (in the code the numbers are not finite from then on); `MPI_Allreduce` is a program given by its contract; printing and
times are left out; the projector is the orthogonal one of Total FETI; the direct solvers and the products with matrices of domains are parameters.
-/
namespace Verif.Feti

open Verif.Csx Verif.Mpi Verif.Comm

variable {K : Type} [Field K]

/-- The preconditioners `NONE`, `LUMPED` and `DIRICHLET` with their data on the process. -/
inductive Preconditioner (K : Type)
  | none
  | lumped (apply : Nat → List K → List K)
  | dirichlet (indices : List (List Nat)) (sc : Nat → Nat → Nat → K)

/-- What a process knows: its part of the projector, of the gluing matrices, the direct solvers of its domains, the right-hand sides `f` and `c`, the global rows of the kernels of its domains, the
preconditioner and `MPI_Allreduce` with `MPI_SUM` for one number. -/
structure Process (K : Type) where
  projector : Projector K
  glue : Glue K
  solve : Nat → List K → List K
  f : List (List K)
  c : List K
  goffsets : List Nat
  precond : Preconditioner K
  reduce : K → Prog (List K) (Option K)

/-- The work vectors of the projector (with the buffers of `Vector_Dual`), of the dual operator and of the preconditioner. -/
structure Scratch (K : Type) where
  work : Work K
  btx : List (List K)
  kbtx : List (List K)
  pbtx : List (List K)
  pkbtx : List (List K)

/-- The vectors of the iterative solver. -/
structure Vectors (K : Type) where
  x : List K
  r : List K
  w : List K
  y : List K
  z : List K
  p : List K
  Fp : List K

/-- `math::scale(a, x)`. -/
def scaleVec (a : K) (x : List K) : Option (List K) :=
  forLoop 0 x.length x fun i x => do
    let v ← x[i]?
    wr x i (a * v)

/-- `a / b`. -/
def divide [DecidableEq K] (a b : K) : Option K := if b = 0 then none else some (a / b)

namespace Process

/-- `synchronize` with the buffers in the work vectors. -/
def sync (A : Process K) (v : List K) (s : Scratch K) : Prog (List K) (Option (List K × Scratch K)) :=
  andThen (syncDual A.projector.tag A.projector.nb A.projector.nmap v s.work.bufs) fun r => .ret (some (r.1, { s with work := { s.work with bufs := r.2 } }))

/-- `TotalFETIImplicit::apply` (`totalfeti.implicit.cpp` 143-148). -/
def applyF (A : Process K) (s : Scratch K) (x y : List K) : Prog (List K) (Option (List K × Scratch K)) :=
  orFail (implicitApply A.glue A.solve x y s.btx s.kbtx) fun r => A.sync r.1 { s with btx := r.2.1, kbtx := r.2.2 }

/-- `Preconditioner::apply` (`emptypreconditioner.h` 19-22, `lumped.cpp` 46-56, `dirichlet.cpp` 80-96). -/
def applyS (A : Process K) (s : Scratch K) (x y : List K) : Prog (List K) (Option (List K × Scratch K)) :=
  match A.precond with
  | .none => orFail (memcpyTo y 0 x) fun y => .ret (some (y, s))
  | .lumped apply => orFail (lumpedApply A.glue apply x y s.pbtx s.pkbtx) fun r => A.sync r.1 { s with pbtx := r.2.1, pkbtx := r.2.2 }
  | .dirichlet indices sc => orFail (dirichletApply A.glue indices sc x y s.pbtx s.pkbtx) fun r => A.sync r.1 { s with pbtx := r.2.1, pkbtx := r.2.2 }

/-- `Projector::apply`. -/
def applyP (A : Process K) (s : Scratch K) (x y : List K) : Prog (List K) (Option (List K × Scratch K)) :=
  andThen (A.projector.apply s.work x y) fun r => .ret (some (r.1, { s with work := r.2 }))

/-- `Projector::applyT`. -/
def applyPt (A : Process K) (s : Scratch K) (x y : List K) : Prog (List K) (Option (List K × Scratch K)) :=
  andThen (A.projector.applyT s.work x y) fun r => .ret (some (r.1, { s with work := r.2 }))

/-- `Vector_Dual::dot` (`vector_dual.cpp` 60-69). -/
def dot (A : Process K) (x y : List K) : Prog (List K) (Option K) :=
  orFail (localDot A.projector.li x y) A.reduce

/-- The dual right-hand side in `update` (`totalfeti.implicit.cpp` 105-108). -/
def rhs (A : Process K) (s : Scratch K) (d : List K) : Prog (List K) (Option (List K × Scratch K)) :=
  orFail (implicitRhs A.glue A.solve A.f d s.kbtx) fun r =>
    andThen (A.sync r.1 { s with kbtx := r.2 }) fun r =>
      orFail (addScaled r.1 (-1) A.c) fun d => .ret (some (d, r.2))

/-- The vector `e` in `update` (`tfeti.orthogonal.symmetric.cpp` 69-76). -/
def kernelSide (A : Process K) (e : List K) : Prog (List K) (Option (List K)) :=
  orFail (kernelRhs A.projector.Rs A.goffsets A.f e) fun e => syncKernel A.projector.tag A.projector.rank A.projector.size e A.projector.roffset A.projector.rsize

/-- The residual, its projection and the direction: `w = Pt r`, `z = S w`, `y = P z` (`pcpg.cpp` 87-89, 118-127). -/
def precondition (A : Process K) (s : Scratch K) (r w z y : List K) : Prog (List K) (Option ((List K × List K × List K) × Scratch K)) :=
  andThen (A.applyPt s r w) fun w =>
    andThen (A.applyS w.2 w.1 z) fun z =>
      andThen (A.applyP z.2 z.1 y) fun y => .ret (some ((w.1, z.1, y.1), y.2))

/-- The initialization (`pcpg.cpp` 72-99) for the orthogonal projector: the vectors and `yw`. -/
def begin (A : Process K) (s : Scratch K) (d e l : List K) (v : Vectors K) : Prog (List K) (Option ((Vectors K × K) × Scratch K)) :=
  andThen (A.projector.applyGtinvGGt s.work e l) fun l =>
    andThen (A.applyF { s with work := l.2 } l.1 v.r) fun r =>
      orFail (scaleVec (-1) r.1) fun r1 =>
        orFail (addScaled r1 1 d) fun r2 =>
          andThen (A.precondition r.2 r2 v.w v.z v.y) fun q =>
            orFail (memcpyTo v.p 0 q.1.2.2) fun p =>
              orFail (memcpyTo v.x 0 l.1) fun x =>
                andThen (A.dot q.1.2.2 q.1.1) fun yw => .ret (some ((⟨x, r2, q.1.1, q.1.2.2, q.1.2.1, p, v.Fp⟩, yw), q.2))

/-- The body of the loop without the check (`pcpg.cpp` 106-140); the swap exchanges `y` and `p`. -/
def step [DecidableEq K] (A : Process K) (s : Scratch K) (v : Vectors K) (yw : K) : Prog (List K) (Option ((Vectors K × K) × Scratch K)) :=
  andThen (A.applyF s v.p v.Fp) fun Fp =>
    andThen (A.dot v.p Fp.1) fun pFp =>
      orFail (divide yw pFp) fun gamma =>
        orFail (addScaled v.x gamma v.p) fun x =>
          orFail (addScaled v.r (-gamma) Fp.1) fun r =>
            andThen (A.precondition Fp.2 r v.w v.z v.y) fun q =>
              andThen (A.dot q.1.2.2 q.1.1) fun yw' =>
                orFail (divide yw' yw) fun beta =>
                  orFail (addScaled q.1.2.2 beta v.p) fun p => .ret (some ((⟨x, r, q.1.1, v.p, q.1.2.1, p, Fp.1⟩, yw'), q.2))

/-- The loop (`pcpg.cpp` 105-144); `none`: not finished within `fuel` steps. -/
def loop [LinearOrder K] (A : Process K) (cfg : Pcpg.Config K) : Nat → Scratch K → Vectors K → K → Pcpg.Info K → Prog (List K) (Option ((Vectors K × Pcpg.Info K) × Scratch K))
  | 0, s, v, _, info => if info.converged then .ret (some ((v, info), s)) else .ret none
  | fuel + 1, s, v, yw, info =>
      if info.converged then .ret (some ((v, info), s))
      else andThen (A.step s v yw) fun n => orFail (Pcpg.updateInfo cfg info (some yw)) fun info => loop A cfg fuel n.2 n.1.1 n.1.2 info

/-- `BtL` (`totalfeti.implicit.cpp` 200-207): the same loops as `applyBt`. -/
def transposed (A : Process K) (x : List K) (y : List (List K)) : Option (List (List K)) := applyBtAll A.glue x y

/-- `math::copy(feti.x[d], iKfBtL[d]); math::add(feti.x[d], T{1}, Ra[d])` for all domains (`iterativesolver.cpp` 53-57). -/
def addKernels (n : Nat) (u Ra x : List (List K)) : Option (List (List K)) :=
  forDomains n x fun d old => do
    let a ← u[d]?
    let b ← Ra[d]?
    let old ← memcpyTo old 0 a
    addScaled old 1 b

/-- The result of the solver on a process: the solution `feti.x`, `feti.BtL`, the multipliers and the report. -/
structure Result (K : Type) where
  u : List (List K)
  BtL : List (List K)
  lambda : List K
  info : Pcpg.Info K

/-- `reconstructSolution` (`iterativesolver.cpp` 44-58). -/
def reconstruct (A : Process K) (s : Scratch K) (l r : List K) (iKfBtL BtL Ra x : List (List K)) : Prog (List K) (Option (List (List K) × List (List K))) :=
  orFail (toPrimal A.glue A.solve l A.f s.btx s.kbtx iKfBtL) fun u =>
    orFail (A.transposed l BtL) fun BtL =>
      andThen (A.projector.applyRinvGGtG s.work r Ra) fun Ra =>
        orFail (addKernels A.glue.length u.1 Ra.1 x) fun x => .ret (some (x, BtL))

/-- The vectors given to the solver; their values are not used. -/
structure Memory (K : Type) where
  s : Scratch K
  d : List K
  e : List K
  l : List K
  v : Vectors K
  iKfBtL : List (List K)
  BtL : List (List K)
  Ra : List (List K)
  x : List (List K)

/-- The right-hand sides and `PCPG::solve`. -/
def run [LinearOrder K] (A : Process K) (cfg : Pcpg.Config K) (fuel : Nat) (m : Memory K) : Prog (List K) (Option (Result K)) :=
  andThen (A.rhs m.s m.d) fun d =>
    andThen (A.kernelSide m.e) fun e =>
      andThen (A.begin d.2 d.1 e m.l m.v) fun b =>
        andThen (A.loop cfg fuel b.2 b.1.1 b.1.2 (Pcpg.setInfo cfg (some b.1.2))) fun n =>
          andThen (A.reconstruct n.2 n.1.1.x n.1.1.r m.iKfBtL m.BtL m.Ra m.x) fun u => .ret (some ⟨u.1, u.2, n.1.1.x, n.1.2⟩)

end Process

end Verif.Feti
