import Verif.Model.BaseFunctions
/-!
The integration points and weights of the elements: `BaseFunctions<code, gps>::simd` and `GGaussePoints<order>`
(`src/analysis/assembler/general/basefunctions.h`).

Simplifications: exact arithmetic; the square root is a parameter (in the code a Newton iteration evaluated by the compiler); decimal
literals are exact fractions. An order without a table does not compile in the code, here it is `none`.
-/
namespace Verif.Fem

variable {K : Type} [Field K]

/-- `getorder<gps, edim>` (basefunctions.h:614-646). -/
def getOrder : Nat → Nat → Option Nat
  | 3, 1 => some 1
  | 3, 8 => some 2
  | 3, 27 => some 3
  | 3, 64 => some 4
  | 3, 125 => some 5
  | 3, 216 => some 6
  | 3, 343 => some 7
  | 3, 512 => some 8
  | 2, 1 => some 1
  | 2, 4 => some 2
  | 2, 9 => some 3
  | 2, 16 => some 4
  | 2, 25 => some 5
  | 2, 36 => some 6
  | 2, 49 => some 7
  | 2, 64 => some 8
  | 1, n => some n
  | _, _ => none

/-- `GGaussePoints<order>` (basefunctions.h:529-612): points and weights. -/
def gauss (sqrt : K → K) : Nat → Option (List (K × K))
  | 1 => some [(0, 2)]
  | 2 => let qa := 1 / sqrt 3
    some [(-qa, 1), (qa, 1)]
  | 3 =>
    let wa : K := 5 / 9
    let wb : K := 8 / 9
    let qa := sqrt (3 / 5)
    some [(-qa, wa), (0, wb), (qa, wa)]
  | 4 =>
    let wa := (18 - sqrt 30) / 36
    let wb := (18 + sqrt 30) / 36
    let qa := sqrt (3 / 7 + sqrt (6 / 5) * 2 / 7)
    let qb := sqrt (3 / 7 - sqrt (6 / 5) * 2 / 7)
    some [(-qa, wa), (-qb, wb), (qb, wb), (qa, wa)]
  | 5 =>
    let wa := (322 - 13 * sqrt 70) / 900
    let wb := (322 + 13 * sqrt 70) / 900
    let wc : K := 128 / 225
    let qa := sqrt (5 + 2 * sqrt (10 / 7)) / 3
    let qb := sqrt (5 - 2 * sqrt (10 / 7)) / 3
    some [(-qa, wa), (-qb, wb), (0, wc), (qb, wb), (qa, wa)]
  | 6 =>
    let wa : K := 171324492379170 / 10 ^ 15
    let wb : K := 360761573048139 / 10 ^ 15
    let wc : K := 467913934572691 / 10 ^ 15
    let qa : K := 932469514203152 / 10 ^ 15
    let qb : K := 661209386466265 / 10 ^ 15
    let qc : K := 238619186083197 / 10 ^ 15
    some [(-qa, wa), (-qb, wb), (-qc, wc), (qc, wc), (qb, wb), (qa, wa)]
  | 7 =>
    let wa : K := 129484966168870 / 10 ^ 15
    let wb : K := 279705391489277 / 10 ^ 15
    let wc : K := 381830050505119 / 10 ^ 15
    let wd : K := 417959183673469 / 10 ^ 15
    let qa : K := 949107912342759 / 10 ^ 15
    let qb : K := 741531185599394 / 10 ^ 15
    let qc : K := 405845151377397 / 10 ^ 15
    let qd : K := 0
    some [(-qa, wa), (-qb, wb), (-qc, wc), (qd, wd), (qc, wc), (qb, wb), (qa, wa)]
  | 8 =>
    let wa : K := 101228536290376 / 10 ^ 15
    let wb : K := 222381034453374 / 10 ^ 15
    let wc : K := 313706645877887 / 10 ^ 15
    let wd : K := 362683783378362 / 10 ^ 15
    let qa : K := 960289856497536 / 10 ^ 15
    let qb : K := 796666477413627 / 10 ^ 15
    let qc : K := 525532409916329 / 10 ^ 15
    let qd : K := 183434642495650 / 10 ^ 15
    some [(-qa, wa), (-qb, wb), (-qc, wc), (-qd, wd), (qd, wd), (qc, wc), (qb, wb), (qa, wa)]
  | _ => none

/-- The arrays of `BaseFunctions<TRIANGLE3, 6>::simd` (basefunctions.h:36-43): points and weights. -/
def ruleTriangle3 : List (List K × K) :=
  [([(445948490915965 / 10 ^ 15), (445948490915965 / 10 ^ 15)], (111690794839005 / 10 ^ 15)),
   ([(445948490915965 / 10 ^ 15), (108103018168070 / 10 ^ 15)], (111690794839005 / 10 ^ 15)),
   ([(108103018168070 / 10 ^ 15), (445948490915965 / 10 ^ 15)], (111690794839005 / 10 ^ 15)),
   ([(91576213509771 / 10 ^ 15), (91576213509771 / 10 ^ 15)], (54975871827661 / 10 ^ 15)),
   ([(91576213509771 / 10 ^ 15), (816847572980459 / 10 ^ 15)], (54975871827661 / 10 ^ 15)),
   ([(816847572980459 / 10 ^ 15), (91576213509771 / 10 ^ 15)], (54975871827661 / 10 ^ 15))]

/-- The arrays of `BaseFunctions<TRIANGLE6, 6>::simd` (basefunctions.h:83-90). -/
def ruleTriangle6 : List (List K × K) :=
  [([(91576213509771 / 10 ^ 15), (91576213509771 / 10 ^ 15)], 1 / 2 * (109951743655322 / 10 ^ 15)),
   ([(816847572980459 / 10 ^ 15), (91576213509771 / 10 ^ 15)], 1 / 2 * (109951743655322 / 10 ^ 15)),
   ([(91576213509771 / 10 ^ 15), (816847572980459 / 10 ^ 15)], 1 / 2 * (109951743655322 / 10 ^ 15)),
   ([(445948490915965 / 10 ^ 15), (445948490915965 / 10 ^ 15)], 1 / 2 * (223381589678011 / 10 ^ 15)),
   ([(108103018168070 / 10 ^ 15), (445948490915965 / 10 ^ 15)], 1 / 2 * (223381589678011 / 10 ^ 15)),
   ([(445948490915965 / 10 ^ 15), (108103018168070 / 10 ^ 15)], 1 / 2 * (223381589678011 / 10 ^ 15))]

/-- The arrays of `BaseFunctions<TETRA4, 4>::simd` (basefunctions.h:132-139). -/
def ruleTetra4 : List (List K × K) :=
  [([(5854101966249685 / 10 ^ 16), (1381966011250105 / 10 ^ 16), (1381966011250105 / 10 ^ 16)], 1 / 24),
   ([(1381966011250105 / 10 ^ 16), (1381966011250105 / 10 ^ 16), (1381966011250105 / 10 ^ 16)], 1 / 24),
   ([(1381966011250105 / 10 ^ 16), (1381966011250105 / 10 ^ 16), (5854101966249685 / 10 ^ 16)], 1 / 24),
   ([(1381966011250105 / 10 ^ 16), (5854101966249685 / 10 ^ 16), (1381966011250105 / 10 ^ 16)], 1 / 24)]

/-- The arrays of `BaseFunctions<TETRA10, 15>::simd` (basefunctions.h:203-227). -/
def ruleTetra10 : List (List K × K) :=
  [([(2500000000000000 / 10 ^ 16), (2500000000000000 / 10 ^ 16), (2500000000000000 / 10 ^ 16)], (30283678097089 / 10 ^ 15)),
   ([0, (3333333333333333 / 10 ^ 16), (3333333333333333 / 10 ^ 16)], (6026785714286 / 10 ^ 15)),
   ([(3333333333333333 / 10 ^ 16), (3333333333333333 / 10 ^ 16), (3333333333333333 / 10 ^ 16)], (6026785714286 / 10 ^ 15)),
   ([(3333333333333333 / 10 ^ 16), (3333333333333333 / 10 ^ 16), 0], (6026785714286 / 10 ^ 15)),
   ([(3333333333333333 / 10 ^ 16), 0, (3333333333333333 / 10 ^ 16)], (6026785714286 / 10 ^ 15)),
   ([(7272727272727273 / 10 ^ 16), (909090909090909 / 10 ^ 16), (909090909090909 / 10 ^ 16)], (11645249086029 / 10 ^ 15)),
   ([(909090909090909 / 10 ^ 16), (909090909090909 / 10 ^ 16), (909090909090909 / 10 ^ 16)], (11645249086029 / 10 ^ 15)),
   ([(909090909090909 / 10 ^ 16), (909090909090909 / 10 ^ 16), (7272727272727273 / 10 ^ 16)], (11645249086029 / 10 ^ 15)),
   ([(909090909090909 / 10 ^ 16), (7272727272727273 / 10 ^ 16), (909090909090909 / 10 ^ 16)], (11645249086029 / 10 ^ 15)),
   ([(4334498464263357 / 10 ^ 16), (665501535736643 / 10 ^ 16), (665501535736643 / 10 ^ 16)], (10949141561386 / 10 ^ 15)),
   ([(665501535736643 / 10 ^ 16), (4334498464263357 / 10 ^ 16), (665501535736643 / 10 ^ 16)], (10949141561386 / 10 ^ 15)),
   ([(665501535736643 / 10 ^ 16), (665501535736643 / 10 ^ 16), (4334498464263357 / 10 ^ 16)], (10949141561386 / 10 ^ 15)),
   ([(665501535736643 / 10 ^ 16), (4334498464263357 / 10 ^ 16), (4334498464263357 / 10 ^ 16)], (10949141561386 / 10 ^ 15)),
   ([(4334498464263357 / 10 ^ 16), (665501535736643 / 10 ^ 16), (4334498464263357 / 10 ^ 16)], (10949141561386 / 10 ^ 15)),
   ([(4334498464263357 / 10 ^ 16), (4334498464263357 / 10 ^ 16), (665501535736643 / 10 ^ 16)], (10949141561386 / 10 ^ 15))]

/-- The arrays of `BaseFunctions<PYRAMID13, 14>::simd` (basefunctions.h:310-323). -/
def rulePyramid13 : List (List K × K) :=
  [([-(758786910639329015 / 10 ^ 18), -(758786910639329015 / 10 ^ 18), -(758786910639329015 / 10 ^ 18)], (335180055401662 / 10 ^ 15)),
   ([(758786910639329015 / 10 ^ 18), -(758786910639329015 / 10 ^ 18), -(758786910639329015 / 10 ^ 18)], (335180055401662 / 10 ^ 15)),
   ([(758786910639329015 / 10 ^ 18), (758786910639329015 / 10 ^ 18), -(758786910639329015 / 10 ^ 18)], (335180055401662 / 10 ^ 15)),
   ([-(758786910639329015 / 10 ^ 18), (758786910639329015 / 10 ^ 18), -(758786910639329015 / 10 ^ 18)], (335180055401662 / 10 ^ 15)),
   ([-(758786910639329015 / 10 ^ 18), -(758786910639329015 / 10 ^ 18), (758786910639329015 / 10 ^ 18)], (335180055401662 / 10 ^ 15)),
   ([(758786910639329015 / 10 ^ 18), -(758786910639329015 / 10 ^ 18), (758786910639329015 / 10 ^ 18)], (335180055401662 / 10 ^ 15)),
   ([(758786910639329015 / 10 ^ 18), (758786910639329015 / 10 ^ 18), (758786910639329015 / 10 ^ 18)], (335180055401662 / 10 ^ 15)),
   ([-(758786910639329015 / 10 ^ 18), (758786910639329015 / 10 ^ 18), (758786910639329015 / 10 ^ 18)], (335180055401662 / 10 ^ 15)),
   ([0, 0, -(795822425754222018 / 10 ^ 18)], (886426592797784 / 10 ^ 15)),
   ([0, -(795822425754222018 / 10 ^ 18), 0], (886426592797784 / 10 ^ 15)),
   ([(795822425754222018 / 10 ^ 18), 0, 0], (886426592797784 / 10 ^ 15)),
   ([0, (795822425754222018 / 10 ^ 18), 0], (886426592797784 / 10 ^ 15)),
   ([-(795822425754222018 / 10 ^ 18), 0, 0], (886426592797784 / 10 ^ 15)),
   ([0, 0, (795822425754222018 / 10 ^ 18)], (886426592797784 / 10 ^ 15))]

/-- The arrays of `BaseFunctions<PRISMA6, 9>::simd` (basefunctions.h:381-395). -/
def rulePrisma6 (sqrt : K → K) : List (List K × K) :=
  [([(1 / 6), (1 / 6), -sqrt (3 / 5)], (5 / 54)),
   ([(4 / 6), (1 / 6), -sqrt (3 / 5)], (5 / 54)),
   ([(1 / 6), (4 / 6), -sqrt (3 / 5)], (5 / 54)),
   ([(1 / 6), (1 / 6), 0], (8 / 54)),
   ([(4 / 6), (1 / 6), 0], (8 / 54)),
   ([(1 / 6), (4 / 6), 0], (8 / 54)),
   ([(1 / 6), (1 / 6), sqrt (3 / 5)], (5 / 54)),
   ([(4 / 6), (1 / 6), sqrt (3 / 5)], (5 / 54)),
   ([(1 / 6), (4 / 6), sqrt (3 / 5)], (5 / 54))]

/-- The arrays of `BaseFunctions<PRISMA15, 9>::simd` (basefunctions.h:481-495). -/
def rulePrisma15 (sqrt : K → K) : List (List K × K) :=
  [([(1 / 6), (1 / 6), -sqrt (3 / 5)], (5 / 54)),
   ([(4 / 6), (1 / 6), -sqrt (3 / 5)], (5 / 54)),
   ([(1 / 6), (4 / 6), -sqrt (3 / 5)], (5 / 54)),
   ([(1 / 6), (1 / 6), 0], (8 / 54)),
   ([(4 / 6), (1 / 6), 0], (8 / 54)),
   ([(1 / 6), (4 / 6), 0], (8 / 54)),
   ([(1 / 6), (1 / 6), sqrt (3 / 5)], (5 / 54)),
   ([(4 / 6), (1 / 6), sqrt (3 / 5)], (5 / 54)),
   ([(1 / 6), (4 / 6), sqrt (3 / 5)], (5 / 54))]

/-- The loops of `GaussPointsDegraded<E, nodes, edim>::simd` (basefunctions.h:977-980, 996-1001, 1024-1031): points and weights in the order `gp`. -/
def tensor (rule : List (K × K)) : Nat → List (List K × K)
  | 1 => rule.map fun r => ([r.1], r.2)
  | 2 => rule.flatMap fun r => rule.map fun s => ([r.1, s.1], r.2 * s.2)
  | _ => rule.flatMap fun r => rule.flatMap fun s => rule.map fun t => ([r.1, s.1, t.1], r.2 * s.2 * t.2)

/-- The points and the weights `element.w` of `BaseFunctions<code, gps>::simd`. -/
def rulePoints (sqrt : K → K) (c : Code) (gps : Nat) : Option (List (List K × K)) :=
  match c, gps with
  | .triangle3, 6 => some ruleTriangle3
  | .triangle6, 6 => some ruleTriangle6
  | .tetra4, 4 => some ruleTetra4
  | .tetra10, 15 => some ruleTetra10
  | .pyramid13, 14 => some rulePyramid13
  | .prisma6, 9 => some (rulePrisma6 sqrt)
  | .prisma15, 9 => some (rulePrisma15 sqrt)
  | c, gps => do
    let order ← getOrder (edim c) gps
    let rule ← gauss sqrt order
    pure (tensor rule (edim c))

end Verif.Fem
