/-
Model of `src/basis/sfc/hilbertcurve.cpp`.  `size_t` values are naturals below 2^64, additions and subtractions are reduced
modulo 2^64 as in the code (the rotation in `D2toD1`/`D3toD1` does wrap around: `n - 1 - x` with `x >= n`).
-/
namespace Verif.Hilbert

/-- Number of `size_t` values. -/
def W : Nat := 2 ^ 64

/-- `a - b` on `size_t`. -/
def sub64 (a b : Nat) : Nat := (a + (W - b % W)) % W
/-- `a + b` on `size_t`. -/
def add64 (a b : Nat) : Nat := (a + b) % W

/-- `(x & s) > 0` as an `int`. -/
def bit (x s : Nat) : Nat := if x &&& s > 0 then 1 else 0

/-- `rotateD2` (lines 7-15). -/
def rotateD2 (n x y rx ry : Nat) : Nat × Nat :=
  if ry = 0 then
    let (x, y) := if rx = 1 then (sub64 (sub64 n 1) x, sub64 (sub64 n 1) y) else (x, y)
    (y, x)
  else (x, y)

/-- `rotateD3` (lines 17-37). -/
def rotateD3 (n x y z rx ry rz : Nat) : Nat × Nat × Nat :=
  if rz = 0 then
    if rx = 1 then
      let (x, z) := (z, x)
      (sub64 (sub64 n 1) x, y, sub64 (sub64 n 1) z)
    else
      let (y, z) := if ry = 1 then (sub64 (sub64 n 1) y, sub64 (sub64 n 1) z) else (y, z)
      (x, z, y)
  else
    let (x, y) := (y, x)
    if ry = 1 then (sub64 (sub64 n 1) x, sub64 (sub64 n 1) y, z) else (x, y, z)

/-- Loop of `D2toD1` (lines 44-50): `for (s = n / 2; s > 0; s /= 2)`. -/
def d2Loop (s x y d : Nat) : Nat :=
  if 0 < s then
    let rx := bit x s
    let ry := bit y s
    let d := add64 d (s * s * ((3 * rx) ^^^ ry))
    let (x, y) := rotateD2 s x y rx ry
    d2Loop (s / 2) x y d
  else d
termination_by s

/-- `D2toD1` (lines 39-52). -/
def D2toD1 (n x y : Nat) : Nat := d2Loop (n / 2) x y 0

/-- Loop of `D3toD1` (lines 59-66). -/
def d3Loop (s x y z d : Nat) : Nat :=
  if 0 < s then
    let rx := bit x s
    let ry := bit y s
    let rz := bit z s
    let d := add64 d (s * s * s * (4 * ry + ((3 * (ry ^^^ rx)) ^^^ rz)))
    let (x, y, z) := rotateD3 s x y z rx ry rz
    d3Loop (s / 2) x y z d
  else d
termination_by s

/-- `D3toD1` (lines 54-68). -/
def D3toD1 (n x y z : Nat) : Nat := d3Loop (n / 2) x y z 0

/-- Loop of `D1toD2` (lines 73-81): `for (s = 1, t = d; s < n; s *= 2, t /= 4)`. -/
def p2Loop (n s t x y : Nat) (hs : 0 < s) : Nat × Nat :=
  if s < n then
    let rx := 1 &&& (t / 2)
    let ry := 1 &&& (t ^^^ rx)
    let (x, y) := rotateD2 s x y rx ry
    p2Loop n (s * 2) (t / 4) (add64 x (s * rx)) (add64 y (s * ry)) (by omega)
  else (x, y)
termination_by n - s

/-- `D1toD2` (lines 70-82). -/
def D1toD2 (n d : Nat) : Nat × Nat := p2Loop n 1 d 0 0 (by omega)

/-- Loop of `D1toD3` (lines 87-97). -/
def p3Loop (n s t x y z : Nat) (hs : 0 < s) : Nat × Nat × Nat :=
  if s < n then
    let rx := (1 &&& (t / 4)) ^^^ (1 &&& (t / 2))
    let ry := 1 &&& (t / 4)
    let rz := (1 &&& (t / 2)) ^^^ (1 &&& t)
    let (x, y, z) := rotateD3 s x y z rx ry rz
    p3Loop n (s * 2) (t / 8) (add64 x (s * rx)) (add64 y (s * ry)) (add64 z (s * rz)) (by omega)
  else (x, y, z)
termination_by n - s

/-- `D1toD3` (lines 84-98). -/
def D1toD3 (n d : Nat) : Nat × Nat × Nat := p3Loop n 1 d 0 0 0 (by omega)

end Verif.Hilbert
