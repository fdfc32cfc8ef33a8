import Verif.Proof.Hilbert
/-! Properties C10 - C13: the Hilbert curve of `src/basis/sfc/hilbertcurve.cpp`. -/
namespace Verif.Hilbert

/-- C10: on a 2^k x 2^k grid `D2toD1` and `D1toD2` are mutually inverse maps between the cells and the indices below 4^k;
the wrap-around of the 64-bit arithmetic never shows (k up to 32, the property asks for 31). -/
theorem C10_hilbert2D_bijection (k : Nat) (hk : k ≤ 32) :
    (∀ x y, x < 2 ^ k → y < 2 ^ k → D2toD1 (2 ^ k) x y < 4 ^ k ∧ D1toD2 (2 ^ k) (D2toD1 (2 ^ k) x y) = (x, y)) ∧
    (∀ d, d < 4 ^ k → (D1toD2 (2 ^ k) d).1 < 2 ^ k ∧ (D1toD2 (2 ^ k) d).2 < 2 ^ k ∧
      D2toD1 (2 ^ k) (D1toD2 (2 ^ k) d).1 (D1toD2 (2 ^ k) d).2 = d) := by
  constructor
  · intro x y hx hy
    have h := I2_lt k x y
    rw [D2toD1_eq k hk hx hy, D1toD2_eq k (by omega), Nat.mod_eq_of_lt h]
    exact ⟨h, P2_I2 k x y hx hy⟩
  · intro d hd
    have h := P2_lt k d
    rw [D1toD2_eq k (by omega), Nat.mod_eq_of_lt hd, D2toD1_eq k hk h.1 h.2]
    exact ⟨h.1, h.2, I2_P2 k d hd⟩

/-- C11: the same in three dimensions (k up to 21, the property asks for 20). -/
theorem C11_hilbert3D_bijection (k : Nat) (hk : k ≤ 21) :
    (∀ x y z, x < 2 ^ k → y < 2 ^ k → z < 2 ^ k →
      D3toD1 (2 ^ k) x y z < 8 ^ k ∧ D1toD3 (2 ^ k) (D3toD1 (2 ^ k) x y z) = (x, y, z)) ∧
    (∀ d, d < 8 ^ k → (D1toD3 (2 ^ k) d).1 < 2 ^ k ∧ (D1toD3 (2 ^ k) d).2.1 < 2 ^ k ∧ (D1toD3 (2 ^ k) d).2.2 < 2 ^ k ∧
      D3toD1 (2 ^ k) (D1toD3 (2 ^ k) d).1 (D1toD3 (2 ^ k) d).2.1 (D1toD3 (2 ^ k) d).2.2 = d) := by
  constructor
  · intro x y z hx hy hz
    have h := I3_lt k x y z
    rw [D3toD1_eq k hk hx hy hz, D1toD3_eq k (by omega), Nat.mod_eq_of_lt h]
    exact ⟨h, P3_I3 k x y z hx hy hz⟩
  · intro d hd
    have h := P3_lt k d
    rw [D1toD3_eq k (by omega), Nat.mod_eq_of_lt hd, D3toD1_eq k hk h.1 h.2.1 h.2.2]
    exact ⟨h.1, h.2.1, h.2.2, I3_P3 k d hd⟩

theorem half_lt {x k : Nat} (h : x < 2 ^ (k + 1)) : x / 2 < 2 ^ k := by
  rw [Nat.pow_succ] at h; omega

/-- C12: the index of a cell on the coarser level is the index on the finer level divided by 4 (2D). -/
theorem C12_hilbert2D_nested (k : Nat) (hk : k + 1 ≤ 32) (x y : Nat) (hx : x < 2 ^ (k + 1)) (hy : y < 2 ^ (k + 1)) :
    D2toD1 (2 ^ k) (x / 2) (y / 2) = D2toD1 (2 ^ (k + 1)) x y / 4 := by
  rw [D2toD1_eq _ hk hx hy, D2toD1_eq _ (by omega) (half_lt hx) (half_lt hy), I2_nested]

/-- C12: 3D version with division by 8. -/
theorem C12_hilbert3D_nested (k : Nat) (hk : k + 1 ≤ 21) (x y z : Nat) (hx : x < 2 ^ (k + 1)) (hy : y < 2 ^ (k + 1))
    (hz : z < 2 ^ (k + 1)) :
    D3toD1 (2 ^ k) (x / 2) (y / 2) (z / 2) = D3toD1 (2 ^ (k + 1)) x y z / 8 := by
  rw [D3toD1_eq _ hk hx hy hz, D3toD1_eq _ (by omega) (half_lt hx) (half_lt hy) (half_lt hz), I3_nested]

/-- C12, index to cell direction (2D): the cell of a fine index lies in the cell of the coarse index `d / 4`. -/
theorem C12_hilbert2D_cell_nested (k : Nat) (hk : k + 1 ≤ 32) (d : Nat) (hd : d < 4 ^ (k + 1)) :
    D1toD2 (2 ^ k) (d / 4) = ((D1toD2 (2 ^ (k + 1)) d).1 / 2, (D1toD2 (2 ^ (k + 1)) d).2 / 2) := by
  obtain ⟨h1, h2, h3⟩ := (C10_hilbert2D_bijection (k + 1) hk).2 d hd
  have h := C12_hilbert2D_nested k hk _ _ h1 h2
  rw [h3] at h
  rw [← h]
  exact ((C10_hilbert2D_bijection k (by omega)).1 _ _ (half_lt h1) (half_lt h2)).2

/-- C12, index to cell direction (3D). -/
theorem C12_hilbert3D_cell_nested (k : Nat) (hk : k + 1 ≤ 21) (d : Nat) (hd : d < 8 ^ (k + 1)) :
    D1toD3 (2 ^ k) (d / 8) = ((D1toD3 (2 ^ (k + 1)) d).1 / 2, (D1toD3 (2 ^ (k + 1)) d).2.1 / 2,
      (D1toD3 (2 ^ (k + 1)) d).2.2 / 2) := by
  obtain ⟨h1, h2, h2', h3⟩ := (C11_hilbert3D_bijection (k + 1) hk).2 d hd
  have h := C12_hilbert3D_nested k hk _ _ _ h1 h2 h2'
  rw [h3] at h
  rw [← h]
  exact ((C11_hilbert3D_bijection k (by omega)).1 _ _ _ (half_lt h1) (half_lt h2) (half_lt h2')).2

/-- Distance of two coordinates. -/
def dist (a b : Nat) : Nat := (a - b) + (b - a)

/-- C13: consecutive indices are face neighbours (the coordinate distances sum up to one) and the curve starts in the first
cell (2D). -/
theorem C13_hilbert2D_continuous (k : Nat) (hk : k ≤ 32) :
    D1toD2 (2 ^ k) 0 = (0, 0) ∧
    ∀ d, d + 1 < 4 ^ k →
      dist (D1toD2 (2 ^ k) d).1 (D1toD2 (2 ^ k) (d + 1)).1 + dist (D1toD2 (2 ^ k) d).2 (D1toD2 (2 ^ k) (d + 1)).2 = 1 := by
  constructor
  · rw [D1toD2_eq k (by omega)]; simp [P2_zero]
  · intro d hd
    rw [D1toD2_eq k (by omega), D1toD2_eq k (by omega), Nat.mod_eq_of_lt hd, Nat.mod_eq_of_lt (by omega)]
    have := P2_adj k d hd
    unfold Adj2 at this; unfold dist
    omega

/-- C13: 3D version. -/
theorem C13_hilbert3D_continuous (k : Nat) (hk : k ≤ 21) :
    D1toD3 (2 ^ k) 0 = (0, 0, 0) ∧
    ∀ d, d + 1 < 8 ^ k →
      dist (D1toD3 (2 ^ k) d).1 (D1toD3 (2 ^ k) (d + 1)).1 + dist (D1toD3 (2 ^ k) d).2.1 (D1toD3 (2 ^ k) (d + 1)).2.1
        + dist (D1toD3 (2 ^ k) d).2.2 (D1toD3 (2 ^ k) (d + 1)).2.2 = 1 := by
  constructor
  · rw [D1toD3_eq k (by omega)]; simp [P3_zero]
  · intro d hd
    rw [D1toD3_eq k (by omega), D1toD3_eq k (by omega), Nat.mod_eq_of_lt hd, Nat.mod_eq_of_lt (by omega)]
    have := P3_adj k d hd
    unfold Adj3 at this; unfold dist
    omega

/-! Concrete instances of the hypotheses: the 4 x 4 grid, and the deepest 3D grid. -/
example : D2toD1 (2 ^ 2) 3 1 < 4 ^ 2 ∧ D1toD2 (2 ^ 2) (D2toD1 (2 ^ 2) 3 1) = (3, 1) :=
  (C10_hilbert2D_bijection 2 (by omega)).1 3 1 (by omega) (by omega)
example : D1toD3 (2 ^ 21) (D3toD1 (2 ^ 21) 2097151 5 77) = (2097151, 5, 77) :=
  ((C11_hilbert3D_bijection 21 (by omega)).1 2097151 5 77 (by omega) (by omega) (by omega)).2
example : D2toD1 (2 ^ 2) (5 / 2) (6 / 2) = D2toD1 (2 ^ 3) 5 6 / 4 := C12_hilbert2D_nested 2 (by omega) 5 6 (by omega) (by omega)
example := (C13_hilbert3D_continuous 2 (by omega)).2 62 (by omega)

end Verif.Hilbert
