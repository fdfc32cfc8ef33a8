import Verif.Model.Elasticity
/-!
The plasticity of Bonet and Wood: `MaterialStructuralMechanicsKernel<nodes, gps, 3>::simd`, case `BONET_WOOD`
(`src/analysis/assembler/structuralmechanics/op.material.h:422-540`), the update of its state, and the walk over the state in
`structuralmechanics/kernel.h:381-500`.

Simplifications: one lane; exact arithmetic with abstract `sqrt`, `log`, `exp`; the eigenvalues and eigenvectors of `eigSym33Asc` (LAPACK) are inputs; the
pull-back of the stress and the elasticity to the reference configuration and the volumetric part `pbar` are not modelled.
-/
namespace Verif.Fem

variable {K : Type} [Field K] [LinearOrder K]

/-- The functions of `<cmath>`. -/
structure Analytic (K : Type) where
  sqrt : K → K
  log : K → K
  exp : K → K

/-- The constants of the material: yield stress, hardening, shear modulus. -/
structure Plastic (K : Type) where
  sigmaY0 : K
  hardening : K
  mu : K

/-- `tau_trial_devdiag` (op.material.h:461-465). -/
def tauTrial (fn : Analytic K) (m : Plastic K) (detF : K) (lambda : Nat → K) (i : Nat) : K :=
  2 * m.mu * fn.log (lambda i) - 2 / 3 * m.mu * fn.log detF

/-- `norm_tau_trial_dev` (op.material.h:467). -/
def normOf (fn : Analytic K) (tau : Nat → K) : K := fn.sqrt (tau 0 * tau 0 + tau 1 * tau 1 + tau 2 * tau 2)

/-- `f_trial` (op.material.h:468). -/
def yieldTrial (fn : Analytic K) (m : Plastic K) (detF alpha norm : K) : K := fn.sqrt (3 / 2) * norm - (m.sigmaY0 * detF + m.hardening * alpha)

/-- The result of the return mapping: the deviatoric Cauchy stress, the table `cc1` without the subtraction of `2 sigma`, the multiplier and the elastic stretches
that are saved; the last two only if the step is plastic. -/
structure Returned (K : Type) where
  sigma : Nat → K
  tangent : Nat → Nat → K
  plastic : Option (K × (Nat → K))

/-- `eye3_13` (op.material.h:469). -/
def eye13 (i j : Nat) : K := if i = j then 2 / 3 else -(1 / 3)

/-- The loop over one lane (op.material.h:486-528). -/
def returnMap (fn : Analytic K) (m : Plastic K) (detF alpha : K) (lambda : Nat → K) : Returned K :=
  let tau := tauTrial fn m detF lambda
  let norm := normOf fn tau
  let f := yieldTrial fn m detF alpha norm
  let sqrt23 := fn.sqrt (2 / 3)
  if 0 < f then
    let dgamma := f / (3 * m.mu + m.hardening)
    let nu := fun i => tau i / (sqrt23 * norm)
    { sigma := fun i => (1 - 2 * m.mu * dgamma / (sqrt23 * norm)) * tau i / detF
      tangent := fun i j => 1 / detF * (2 * m.mu * (1 - 2 * m.mu * dgamma / (sqrt23 * norm)) * eye13 i j -
        4 * m.mu * m.mu * nu i * nu j * (1 / (3 * m.mu + m.hardening) - sqrt23 * dgamma / norm))
      plastic := some (dgamma, fun i => fn.exp (fn.log (lambda i) - dgamma * nu i)) }
  else
    { sigma := fun i => tau i / detF
      tangent := fun i j => 1 / detF * 2 * m.mu * eye13 i j
      plastic := none }

/-- `determinant33` (math.h:143-148). -/
def flatDet (J : Nat → K) : K :=
  J 0 * J 4 * J 8 + J 1 * J 5 * J 6 + J 2 * J 3 * J 7 - J 2 * J 4 * J 6 - J 1 * J 3 * J 8 - J 0 * J 5 * J 7

/-- `inv33` (math.h:150-164). -/
def flatInv (A : Nat → K) (i : Nat) : K :=
  let scale := 1 / flatDet A
  match i with
  | 0 => scale * (A 8 * A 4 - A 7 * A 5)
  | 1 => scale * (-A 8 * A 1 + A 7 * A 2)
  | 2 => scale * (A 5 * A 1 - A 4 * A 2)
  | 3 => scale * (-A 8 * A 3 + A 6 * A 5)
  | 4 => scale * (A 8 * A 0 - A 6 * A 2)
  | 5 => scale * (-A 5 * A 0 + A 3 * A 2)
  | 6 => scale * (A 7 * A 3 - A 6 * A 4)
  | 7 => scale * (-A 7 * A 0 + A 6 * A 1)
  | _ => scale * (A 4 * A 0 - A 3 * A 1)

/-- `multABAt<3, 3>` into zeros (math.h:90-109). -/
def congruence (A B : Nat → K) (i : Nat) : K :=
  let AB := fun j => sumLoop 3 fun k => A (i / 3 * 3 + k) * B (k * 3 + j)
  sumLoop 3 fun k => AB k * A (i % 3 * 3 + k)

/-- The state of one point: `alpha` and `invCp` in the notation of Voigt. -/
structure PlasticState (K : Type) where
  alpha : K
  invCp : Nat → K

/-- `be_trial` (op.material.h:432-436, 456). -/
def trialBe (F : Nat → K) (s : PlasticState K) : Nat → K := congruence F (voigt6ToMatrix33 s.invCp)

/-- The upper triangle of `be` made symmetric (op.material.h:505-511, 546): `n` are the eigenvectors in rows. -/
def savedBe (lambda n : Nat → K) (i : Nat) : K :=
  let up := fun i j => sumLoop 3 fun a => lambda a * lambda a * n (a * 3 + i) * n (a * 3 + j)
  if i / 3 ≤ i % 3 then up (i / 3) (i % 3) else up (i % 3) (i / 3)

/-- The state after a step with `save` (op.material.h:500-512, 545-559). -/
def saveState (F n : Nat → K) (r : Returned K) (s : PlasticState K) : PlasticState K :=
  match r.plastic with
  | none => s
  | some (dgamma, lambda) =>
    let be := savedBe lambda n
    let invCp := congruence (flatInv F) be
    { alpha := s.alpha + dgamma
      invCp := fun i => match i with
        | 0 => invCp 0
        | 1 => invCp 4
        | 2 => invCp 8
        | 3 => invCp 1
        | 4 => invCp 5
        | 5 => invCp 2
        | _ => 0 }

/-- The calls of `material.simd` in one chunk (kernel.h:403-425, 483-491): the `gps` points and, with stresses, the nodes; every call moves the pointer of the state. -/
def chunkWalk (gps nodes : Nat) (stress : Bool) (c : Nat) (s : Nat × List (Nat × Nat × Nat)) : Nat × List (Nat × Nat × Nat) :=
  let s := (List.range gps).foldl (fun s gp => (s.1 + 1, s.2 ++ [(c, gp, s.1)])) s
  if stress then (List.range nodes).foldl (fun s n => (s.1 + 1, s.2 ++ [(c, gps + n, s.1)])) s else s

/-- The loop over the chunks (kernel.h:381-500): for every call the chunk, the number of the call in the chunk and the position in the state. -/
def stateWalk (chunks gps nodes : Nat) (stress : Bool) : List (Nat × Nat × Nat) :=
  ((List.range chunks).foldl (fun s c => chunkWalk gps nodes stress c s) (0, [])).2

/-- The number of positions that `MaterialStructuralMechanics::init` allocates (op.material.h:46-48), with the slack for the alignment. -/
def stateSize (chunks gps : Nat) : Nat := chunks * gps + 1

end Verif.Fem
