import Verif.Model.DualOperator
import Verif.Model.Nonblocking
import Verif.Model.DualMap
/-!
The projector of Total FETI: `src/feti/projector/projector.cpp`, the distributed vectors of the kernels `src/feti/projector/vector_kernel.cpp` and `Vector_Dual::copyToWithoutHalo`
(`src/feti/common/vector_dual.cpp`); first the parts of one process between the communications, then the programs of a process with the communications (`allGatherInplace`, C53, and the synchronization of dual
vectors, C61).

Simplifications: values are from a commutative ring; the threads work on different rows and are executed in order; `chunk` is `align / sizeof(T)`; the matrix `G` is a matrix with its own arrays
(in the code it has the first rows of `Gt`).
-/
namespace Verif.Feti

open Verif.Csx

variable {R : Type} [CommRing R]

/-- The body of the loop in `Vector_Kernel::set` (`vector_kernel.cpp` 18-24). -/
def distributionStep (chunk tsize size t : Nat) (dist : List Nat) : Option (List Nat) := do
  let prev ← dist[t - 1]?
  let d := prev + tsize * chunk
  let d := if size % chunk < t - 1 then d + chunk else d
  wr dist t (min d size)

/-- `Vector_Kernel::set` (`vector_kernel.cpp` 15-25): `distribution`; its first element is zero from the initialization (`vector_kernel.h` 42). -/
def kernelDistribution (threads chunk size : Nat) : Option (List Nat) := do
  let tsize := max (size / chunk) 1
  let dist ← forLoop 1 (threads + 1) (List.replicate (threads + 1) 0) fun t dist => distributionStep chunk tsize size t dist
  wr dist (dist.length - 1) size

/-- `for (t = 0; t < threads; ++t) for (r = distribution[t]; r < distribution[t + 1]; ++r)`. -/
def forThreads {σ : Type} (threads : Nat) (dist : List Nat) (s : σ) (f : Nat → σ → Option σ) : Option σ :=
  forLoop 0 threads s fun t s => do
    let a ← dist[t]?
    let b ← dist[t + 1]?
    forLoop a b s f

/-- `_apply_G` (`projector.cpp` 215-223) before `synchronize`. -/
def applyGLocal (threads : Nat) (dist : List Nat) (offset : Nat) (G : Csx R) (x out : List R) : Option (List R) :=
  forThreads threads dist out fun r out => do
    let out ← wr out (r + offset) 0
    let a ← G.ptrs[r]?
    let b ← G.ptrs[r + 1]?
    forLoop a b out fun c out => do
      let j ← G.idxs[c]?
      let v ← G.vals[c]?
      let xv ← x[j]?
      addAt out (r + offset) (v * xv)

/-- The products with dense rows in `_apply_invGGt`, `_apply_invL`, `_apply_invU` (`projector.cpp` 232-243, 247-269; 281-291; 306-316): `math::blas::apply` of the rows of a thread; `yoff` is the offset of the
result in the vector. -/
def applyRows (threads : Nat) (dist : List Nat) (ncols : Nat) (a : List R) (x : List R) (yoff : Nat) (y : List R) : Option (List R) :=
  forThreads threads dist y fun r y => do
    let s ← forLoop 0 ncols (0 : R) fun c s => do
      let v ← a[ncols * r + c]?
      let w ← x[c]?
      some (s + v * w)
    wr y (r + yoff) s

/-- `_apply_Gt` (`projector.cpp` 329-333) before `synchronize`. -/
def applyGtLocal (G : Csx R) (x : List R) (α : R) (out : List R) : Option (List R) :=
  forEntries G out fun r i c out => do
    let v ← G.vals[i]?
    let z ← x[r]?
    addAt out c (α * v * z)

/-- The body of the loop over intervals in `copyToWithoutHalo` (`vector_dual.cpp` 53-55); the state is `(to, prev)`. -/
def withoutHaloStep (vals : List R) (iv : Nat × Nat) (st : List R × Nat) : Option (List R × Nat) := do
  let dst ← forLoop st.2 iv.1 st.1 fun k dst => wr dst k 0
  let dst ← forLoop iv.1 iv.2 dst fun k dst => do
    let v ← vals[k]?
    wr dst k v
  some (dst, iv.2)

/-- `Vector_Dual::copyToWithoutHalo` (`vector_dual.cpp` 48-57). -/
def copyToWithoutHalo (li : List (Nat × Nat)) (vals dst : List R) : Option (List R) := do
  let st ← li.foldlM (fun st iv => withoutHaloStep vals iv st) (dst, 0)
  some st.1

/-- A dense matrix (`Matrix_Dense`, row major). -/
structure Dense (R : Type) where
  nrows : Nat
  ncols : Nat
  vals : List R

/-- `math::blas::applyT(y, 1, A, 0, x)`. -/
def denseApplyT (A : Dense R) (x : List R) (xoff : Nat) (y : List R) : Option (List R) :=
  forLoop 0 A.ncols y fun i y => do
    let s ← forLoop 0 A.nrows (0 : R) fun k s => do
      let v ← A.vals[A.ncols * k + i]?
      let w ← x[xoff + k]?
      some (s + v * w)
    wr y i s

/-- `_apply_R` (`projector.cpp` 338-348); `offsets` are `kernel[d].offset`. -/
def applyR (Rs : List (Dense R)) (offsets : List Nat) (x : List R) (out : List (List R)) : Option (List (List R)) :=
  forDomains out.length out fun d old => do
    let A ← Rs[d]?
    let off ← offsets[d]?
    denseApplyT A x off old

/-- `math::blas::apply(y, alpha, A, 0, x)` to the part of `y` from `yoff`. -/
def denseApplyAt (A : Dense R) (α : R) (x : List R) (yoff : Nat) (y : List R) : Option (List R) :=
  forLoop 0 A.nrows y fun k y => do
    let s ← forLoop 0 A.ncols (0 : R) fun i s => do
      let v ← A.vals[A.ncols * k + i]?
      let w ← x[i]?
      some (s + v * w)
    wr y (yoff + k) (α * s)

/-- The vector `e` in `TFETIOrthogonalSymmetric::update` (`tfeti.orthogonal.symmetric.cpp` 69-75) before `synchronize`; `goffsets` are `dual.domains.vertices.at(dbegin + d).kernel.goffset`. -/
def kernelRhs (Rs : List (Dense R)) (goffsets : List Nat) (f : List (List R)) (e : List R) : Option (List R) :=
  forLoop 0 Rs.length e fun d e => do
    let A ← Rs[d]?
    let off ← goffsets[d]?
    let fd ← f[d]?
    denseApplyAt A (-1) fd off e

/-! ### Programs of a process -/

open Verif.Mpi Verif.Comm

section seq
variable {M A B : Type}

/-- Continue with the result of a computation without communication. -/
def orFail (o : Option A) (k : A → Prog M (Option B)) : Prog M (Option B) :=
  match o with
  | none => .ret none
  | some a => k a

/-- Continue with the result of a program. -/
def andThen (p : Prog M (Option A)) (k : A → Prog M (Option B)) : Prog M (Option B) := p.bind fun o => orFail o k

end seq

/-- The static buffers of `Vector_Dual`. -/
structure Buffers (R : Type) where
  send : List (List R)
  recv : List (List R)

/-- `Vector_Dual::synchronize` (`vector_dual.cpp` 24-46). -/
def syncDual (t : Nat) (nb nmap : List Nat) (vals : List R) (b : Buffers R) : Prog (List R) (Option (List R × Buffers R)) :=
  orFail (syncPack nmap vals b.send) fun send =>
    andThen (exchangeKnownSize t nb send b.recv) fun recv =>
      orFail (syncAdd nmap vals recv) fun vals => .ret (some (vals, ⟨send, recv⟩))

/-- `Vector_Kernel::synchronize` (`vector_kernel.cpp` 47-50). -/
def syncKernel (t rank size : Nat) (vals : List R) (offset localSize : Nat) : Prog (List R) (Option (List R)) :=
  andThen (allGatherInplace t rank size ⟨vals, offset, localSize⟩) fun s => .ret (some s.data)

/-- `GGTtype` with the matrices (dense, `Kernel::rsize` rows, `Kernel::total` columns). -/
inductive Factor (R : Type)
  | ggt (inv : List R)
  | lu (invL invU : List R)
  | none

/-- What a process knows: its rank, the number of processes, the tag of messages, its neighbours, `Dual_Map::nmap`, `Dual_Map::local_intervals`, the number of threads, `Vector_Kernel::distribution`,
`Kernel::roffset`, `rsize`, `total`, `G`, `GGTtype` with its matrices, the kernels `R1` and `kernel[d].offset`. -/
structure Projector (R : Type) where
  rank : Nat
  size : Nat
  tag : Nat
  nb : List Nat
  nmap : List Nat
  li : List (Nat × Nat)
  threads : Nat
  dist : List Nat
  roffset : Nat
  rsize : Nat
  total : Nat
  G : Csx R
  factor : Factor R
  Rs : List (Dense R)
  offsets : List Nat

/-- The work vectors: `Gx`, `iGGtGx`, `Fx`, the local vector `mid` of `_apply_invGGt` (with its uninitialised values) and the buffers of `Vector_Dual`. -/
structure Work (R : Type) where
  Gx : List R
  iGGtGx : List R
  Fx : List R
  mid : List R
  bufs : Buffers R

namespace Projector

/-- `_apply_G` (`projector.cpp` 213-225). -/
def applyG (P : Projector R) (x out : List R) : Prog (List R) (Option (List R)) :=
  orFail (applyGLocal P.threads P.dist P.roffset P.G x out) fun out => syncKernel P.tag P.rank P.size out P.roffset P.rsize

/-- `_apply_invGGt` (`projector.cpp` 228-274). -/
def applyInvGGt (P : Projector R) (mid x out : List R) : Prog (List R) (Option (List R)) :=
  match P.factor with
  | .ggt inv => orFail (applyRows P.threads P.dist P.total inv x 0 out) fun out => .ret (some out)
  | .lu invL invU =>
      orFail (applyRows P.threads P.dist P.total invL x P.roffset mid) fun mid =>
        andThen (syncKernel P.tag P.rank P.size mid P.roffset P.rsize) fun mid =>
          orFail (applyRows P.threads P.dist P.total invU mid 0 out) fun out => .ret (some out)
  | .none => .ret (some out)

/-- `_apply_Gt` (`projector.cpp` 327-335). -/
def applyGt (P : Projector R) (x : List R) (α : R) (out : List R) (b : Buffers R) : Prog (List R) (Option (List R × Buffers R)) :=
  orFail (applyGtLocal P.G x α out) fun out => syncDual P.tag P.nb P.nmap out b

/-- `apply` (`projector.cpp` 96-107) for the orthogonal projector; the result is `y` and the work vectors. -/
def apply (P : Projector R) (w : Work R) (x y : List R) : Prog (List R) (Option (List R × Work R)) :=
  orFail (copyToWithoutHalo P.li x y) fun y =>
    orFail (memcpyTo w.Fx 0 x) fun Fx =>
      andThen (P.applyG Fx w.Gx) fun Gx =>
        andThen (P.applyInvGGt w.mid Gx w.iGGtGx) fun z =>
          andThen (P.applyGt z (-1) y w.bufs) fun r => .ret (some (r.1, ⟨Gx, z, Fx, w.mid, r.2⟩))

/-- `applyT` (`projector.cpp` 110-125) for the orthogonal projector. -/
def applyT (P : Projector R) (w : Work R) (x y : List R) : Prog (List R) (Option (List R × Work R)) :=
  orFail (copyToWithoutHalo P.li x y) fun y =>
    andThen (P.applyG x w.Gx) fun Gx =>
      andThen (P.applyInvGGt w.mid Gx w.iGGtGx) fun z =>
        andThen (P.applyGt z (-1) y w.bufs) fun r => .ret (some (r.1, ⟨Gx, z, w.Fx, w.mid, r.2⟩))

/-- `apply_GtintGGtG` (`projector.cpp` 128-134). -/
def applyGtinvGGtG (P : Projector R) (w : Work R) (x y : List R) : Prog (List R) (Option (List R × Work R)) :=
  andThen (P.applyG x w.Gx) fun Gx =>
    andThen (P.applyInvGGt w.mid Gx w.iGGtGx) fun z =>
      andThen (P.applyGt z 1 (zeros y) w.bufs) fun r => .ret (some (r.1, ⟨Gx, z, w.Fx, w.mid, r.2⟩))

/-- `apply_GtintGGt` (`projector.cpp` 137-142). -/
def applyGtinvGGt (P : Projector R) (w : Work R) (x y : List R) : Prog (List R) (Option (List R × Work R)) :=
  andThen (P.applyInvGGt w.mid x w.iGGtGx) fun z =>
    andThen (P.applyGt z 1 (zeros y) w.bufs) fun r => .ret (some (r.1, ⟨w.Gx, z, w.Fx, w.mid, r.2⟩))

/-- `apply_RinvGGtG` (`projector.cpp` 161-173) for the orthogonal projector. -/
def applyRinvGGtG (P : Projector R) (w : Work R) (x : List R) (y : List (List R)) : Prog (List R) (Option (List (List R) × Work R)) :=
  match P.factor with
  | .none => .ret (some (y.map zeros, w))
  | _ =>
      andThen (P.applyG x w.Gx) fun Gx =>
        andThen (P.applyInvGGt w.mid Gx w.iGGtGx) fun z =>
          orFail (applyR P.Rs P.offsets z y) fun y => .ret (some (y, ⟨Gx, z, w.Fx, w.mid, w.bufs⟩))

end Projector

end Verif.Feti
