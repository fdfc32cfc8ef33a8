import Verif.Model.Hilbert
namespace Verif.Hilbert

/-! Recursive description on naturals (proof device). -/

def R2 (s x y rx ry : Nat) : Nat × Nat :=
  if ry = 0 then (if rx = 1 then (s - 1 - y, s - 1 - x) else (y, x)) else (x, y)

def R3 (s x y z rx ry rz : Nat) : Nat × Nat × Nat :=
  if rz = 0 then
    if rx = 1 then (s - 1 - z, y, s - 1 - x)
    else if ry = 1 then (x, s - 1 - z, s - 1 - y) else (x, z, y)
  else if ry = 1 then (s - 1 - y, s - 1 - x, z) else (y, x, z)

/-- Index of a cell, top digit first. -/
def I2 : Nat → Nat → Nat → Nat
  | 0, _, _ => 0
  | k + 1, x, y =>
      let rx := x / 2 ^ k % 2
      let ry := y / 2 ^ k % 2
      let p := R2 (2 ^ k) (x % 2 ^ k) (y % 2 ^ k) rx ry
      ((3 * rx) ^^^ ry) * 4 ^ k + I2 k p.1 p.2

def I3 : Nat → Nat → Nat → Nat → Nat
  | 0, _, _, _ => 0
  | k + 1, x, y, z =>
      let rx := x / 2 ^ k % 2
      let ry := y / 2 ^ k % 2
      let rz := z / 2 ^ k % 2
      let p := R3 (2 ^ k) (x % 2 ^ k) (y % 2 ^ k) (z % 2 ^ k) rx ry rz
      (4 * ry + ((3 * (ry ^^^ rx)) ^^^ rz)) * 8 ^ k + I3 k p.1 p.2.1 p.2.2

/-- Cell of an index. -/
def P2 : Nat → Nat → Nat × Nat
  | 0, _ => (0, 0)
  | k + 1, d =>
      let q := d / 4 ^ k % 4
      let rx := q / 2
      let ry := (q ^^^ rx) % 2
      let p := P2 k (d % 4 ^ k)
      let p := R2 (2 ^ k) p.1 p.2 rx ry
      (p.1 + 2 ^ k * rx, p.2 + 2 ^ k * ry)

def P3 : Nat → Nat → Nat × Nat × Nat
  | 0, _ => (0, 0, 0)
  | k + 1, d =>
      let q := d / 8 ^ k % 8
      let rx := (q / 4) ^^^ (q / 2 % 2)
      let ry := q / 4
      let rz := (q / 2 % 2) ^^^ (q % 2)
      let p := P3 k (d % 8 ^ k)
      let p := R3 (2 ^ k) p.1 p.2.1 p.2.2 rx ry rz
      (p.1 + 2 ^ k * rx, p.2.1 + 2 ^ k * ry, p.2.2 + 2 ^ k * rz)

theorem and_two_pow' (x k : Nat) : x &&& 2 ^ k = if x.testBit k then 2 ^ k else 0 := by
  apply Nat.eq_of_testBit_eq
  intro i
  rw [Nat.testBit_and, Nat.testBit_two_pow]
  by_cases h : k = i
  · subst h
    by_cases h2 : x.testBit k <;> simp [h2]
  · by_cases h2 : x.testBit k
    · simp [h, h2, Nat.testBit_two_pow]
    · simp [h, h2]

theorem bit_pow (x k : Nat) : bit x (2 ^ k) = x / 2 ^ k % 2 := by
  unfold bit
  rw [and_two_pow']
  have : x.testBit k = decide (x / 2 ^ k % 2 = 1) := Nat.testBit_eq_decide_div_mod_eq
  have hpos : 0 < 2 ^ k := Nat.pow_pos (by omega)
  rw [this]
  by_cases h : x / 2 ^ k % 2 = 1
  · simp [h, hpos]
  · have : x / 2 ^ k % 2 = 0 := by omega
    simp [this]

theorem W_pow {k : Nat} (hk : k ≤ 64) : W = 2 ^ k * 2 ^ (64 - k) := by
  rw [← Nat.pow_add, Nat.add_sub_cancel' hk]; rfl

/-- Reflection modulo the cell size survives the wrap-around. -/
theorem sub64_mod {k x : Nat} (hk : k ≤ 63) : sub64 (sub64 (2 ^ k) 1) x % 2 ^ k = 2 ^ k - 1 - x % 2 ^ k := by
  have hpos : 0 < 2 ^ k := Nat.pow_pos (by omega)
  have hlt : 2 ^ k ≤ 2 ^ 63 := Nat.pow_le_pow_right (by omega) hk
  have h1 : sub64 (2 ^ k) 1 = 2 ^ k - 1 := by
    unfold sub64 W; omega
  rw [h1]
  unfold sub64
  have hd : 2 ^ k ∣ W := ⟨2 ^ (64 - k), W_pow (by omega)⟩
  rw [Nat.mod_mod_of_dvd _ hd]
  have hxW : x % W % 2 ^ k = x % 2 ^ k := Nat.mod_mod_of_dvd _ hd
  have hxl : x % W < W := Nat.mod_lt _ (by decide)
  obtain ⟨c, hc⟩ := hd
  have hdm := Nat.div_add_mod (x % W) (2 ^ k)
  have hml := Nat.mod_lt (x % W) hpos
  rw [hxW] at hdm hml
  have hq : x % W / 2 ^ k < c := by
    apply Nat.div_lt_of_lt_mul; rw [← hc]; exact hxl
  -- 2^k - 1 + (2^k c - (2^k q + m)) = 2^k (c - q) + (2^k - 1 - m)
  have hmul : 2 ^ k * (c - x % W / 2 ^ k) = W - 2 ^ k * (x % W / 2 ^ k) := by
    rw [Nat.mul_sub, ← hc]
  have hle : 2 ^ k * (x % W / 2 ^ k) + 2 ^ k ≤ W := by
    have := Nat.mul_le_mul_left (2 ^ k) hq
    rw [Nat.mul_succ, ← hc] at this; exact this
  have : 2 ^ k - 1 + (W - x % W) = 2 ^ k * (c - x % W / 2 ^ k) + (2 ^ k - 1 - x % 2 ^ k) := by
    rw [hmul]; omega
  rw [this, Nat.mul_add_mod, Nat.mod_eq_of_lt (by omega)]

theorem rotateD2_mod {k x y : Nat} (hk : k ≤ 63) (rx ry : Nat) :
    ((rotateD2 (2 ^ k) x y rx ry).1 % 2 ^ k, (rotateD2 (2 ^ k) x y rx ry).2 % 2 ^ k)
      = R2 (2 ^ k) (x % 2 ^ k) (y % 2 ^ k) rx ry := by
  unfold rotateD2 R2
  by_cases h : ry = 0
  · by_cases h2 : rx = 1
    · simp [h, h2, sub64_mod hk]
    · simp [h, h2]
  · simp [h]

theorem rotateD3_mod {k x y z : Nat} (hk : k ≤ 63) (rx ry rz : Nat) :
    ((rotateD3 (2 ^ k) x y z rx ry rz).1 % 2 ^ k, (rotateD3 (2 ^ k) x y z rx ry rz).2.1 % 2 ^ k,
      (rotateD3 (2 ^ k) x y z rx ry rz).2.2 % 2 ^ k)
      = R3 (2 ^ k) (x % 2 ^ k) (y % 2 ^ k) (z % 2 ^ k) rx ry rz := by
  unfold rotateD3 R3
  by_cases h : rz = 0
  · by_cases h2 : rx = 1
    · simp [h, h2, sub64_mod hk]
    · by_cases h3 : ry = 1
      · simp [h, h2, h3, sub64_mod hk]
      · simp [h, h2, h3]
  · by_cases h3 : ry = 1
    · simp [h, h3, sub64_mod hk]
    · simp [h, h3]

theorem pow_half (k : Nat) : 2 ^ (k + 1) / 2 = 2 ^ k := by rw [Nat.pow_succ]; omega

theorem sq_pow (k : Nat) : 2 ^ k * 2 ^ k = 4 ^ k := by rw [← Nat.mul_pow]
theorem cube_pow (k : Nat) : 2 ^ k * 2 ^ k * 2 ^ k = 8 ^ k := by rw [← Nat.mul_pow, ← Nat.mul_pow]

theorem d2Loop_eq (k : Nat) (hk : k ≤ 64) : ∀ x y d,
    d2Loop (2 ^ k / 2) x y d % W = (d + I2 k (x % 2 ^ k) (y % 2 ^ k)) % W := by
  induction k with
  | zero => intro x y d; rw [d2Loop]; simp [I2]
  | succ k ih =>
      intro x y d
      have hpos : 0 < 2 ^ k := Nat.pow_pos (by omega)
      rw [pow_half, d2Loop, if_pos hpos]
      simp only
      rw [ih (by omega)]
      have hR := rotateD2_mod (k := k) (x := x) (y := y) (by omega) (bit x (2 ^ k)) (bit y (2 ^ k))
      rw [Prod.ext_iff] at hR
      simp only at hR
      rw [hR.1, hR.2]
      have hb : ∀ x : Nat, x % 2 ^ (k + 1) / 2 ^ k % 2 = x / 2 ^ k % 2 := by
        intro x
        rw [Nat.pow_succ, Nat.mod_mul_right_div_self, Nat.mod_mod]
      have hm : ∀ x : Nat, x % 2 ^ (k + 1) % 2 ^ k = x % 2 ^ k := by
        intro x; exact Nat.mod_mod_of_dvd _ ⟨2, by rw [Nat.pow_succ]⟩
      simp only [I2, hb, hm, bit_pow]
      rw [sq_pow, Nat.mul_comm (4 ^ k)]
      unfold add64
      simp only [Nat.mod_add_mod, Nat.add_assoc]

theorem d3Loop_eq (k : Nat) (hk : k ≤ 64) : ∀ x y z d,
    d3Loop (2 ^ k / 2) x y z d % W = (d + I3 k (x % 2 ^ k) (y % 2 ^ k) (z % 2 ^ k)) % W := by
  induction k with
  | zero => intro x y z d; rw [d3Loop]; simp [I3]
  | succ k ih =>
      intro x y z d
      have hpos : 0 < 2 ^ k := Nat.pow_pos (by omega)
      rw [pow_half, d3Loop, if_pos hpos]
      simp only
      rw [ih (by omega)]
      have hR := rotateD3_mod (k := k) (x := x) (y := y) (z := z) (by omega)
        (bit x (2 ^ k)) (bit y (2 ^ k)) (bit z (2 ^ k))
      rw [Prod.ext_iff, Prod.ext_iff] at hR
      simp only at hR
      rw [hR.1, hR.2.1, hR.2.2]
      have hb : ∀ x : Nat, x % 2 ^ (k + 1) / 2 ^ k % 2 = x / 2 ^ k % 2 := by
        intro x
        rw [Nat.pow_succ, Nat.mod_mul_right_div_self, Nat.mod_mod]
      have hm : ∀ x : Nat, x % 2 ^ (k + 1) % 2 ^ k = x % 2 ^ k := by
        intro x; exact Nat.mod_mod_of_dvd _ ⟨2, by rw [Nat.pow_succ]⟩
      simp only [I3, hb, hm, bit_pow]
      rw [cube_pow, Nat.mul_comm (8 ^ k)]
      unfold add64
      simp only [Nat.mod_add_mod, Nat.add_assoc]

theorem d2Loop_lt : ∀ s x y d, d < W → d2Loop s x y d < W := by
  intro s x y d hd
  fun_induction d2Loop s x y d with
  | case1 => rename_i ih; exact ih (Nat.mod_lt _ (by decide))
  | case2 => exact hd

theorem d3Loop_lt : ∀ s x y z d, d < W → d3Loop s x y z d < W := by
  intro s x y z d hd
  fun_induction d3Loop s x y z d with
  | case1 => rename_i ih; exact ih (Nat.mod_lt _ (by decide))
  | case2 => exact hd

theorem I2_lt (k : Nat) : ∀ x y, I2 k x y < 4 ^ k := by
  induction k with
  | zero => intro x y; simp [I2]
  | succ k ih =>
      intro x y
      simp only [I2]
      have h1 := ih (R2 (2 ^ k) (x % 2 ^ k) (y % 2 ^ k) (x / 2 ^ k % 2) (y / 2 ^ k % 2)).1
        (R2 (2 ^ k) (x % 2 ^ k) (y % 2 ^ k) (x / 2 ^ k % 2) (y / 2 ^ k % 2)).2
      have h2 : (3 * (x / 2 ^ k % 2)) ^^^ (y / 2 ^ k % 2) ≤ 3 := by
        rcases Nat.mod_two_eq_zero_or_one (x / 2 ^ k) with h | h <;>
          rcases Nat.mod_two_eq_zero_or_one (y / 2 ^ k) with h' | h' <;> simp [h, h']
      have h3 := Nat.mul_le_mul_right (4 ^ k) h2
      rw [Nat.pow_succ]; omega

theorem I3_lt (k : Nat) : ∀ x y z, I3 k x y z < 8 ^ k := by
  induction k with
  | zero => intro x y z; simp [I3]
  | succ k ih =>
      intro x y z
      simp only [I3]
      generalize hp : R3 (2 ^ k) (x % 2 ^ k) (y % 2 ^ k) (z % 2 ^ k) (x / 2 ^ k % 2) (y / 2 ^ k % 2) (z / 2 ^ k % 2) = p
      have h1 := ih p.1 p.2.1 p.2.2
      have h2 : 4 * (y / 2 ^ k % 2) + ((3 * ((y / 2 ^ k % 2) ^^^ (x / 2 ^ k % 2))) ^^^ (z / 2 ^ k % 2)) ≤ 7 := by
        rcases Nat.mod_two_eq_zero_or_one (x / 2 ^ k) with h | h <;>
          rcases Nat.mod_two_eq_zero_or_one (y / 2 ^ k) with h' | h' <;>
          rcases Nat.mod_two_eq_zero_or_one (z / 2 ^ k) with h'' | h'' <;> simp [h, h', h'']
      have h3 := Nat.mul_le_mul_right (8 ^ k) h2
      rw [Nat.pow_succ]; omega

theorem D2toD1_eq (k : Nat) (hk : k ≤ 32) {x y : Nat} (hx : x < 2 ^ k) (hy : y < 2 ^ k) :
    D2toD1 (2 ^ k) x y = I2 k x y := by
  have h := d2Loop_eq k (by omega) x y 0
  have hlt := d2Loop_lt (2 ^ k / 2) x y 0 (by decide)
  rw [Nat.mod_eq_of_lt hlt, Nat.mod_eq_of_lt hx, Nat.mod_eq_of_lt hy, Nat.zero_add] at h
  have hI : I2 k x y < W := by
    refine Nat.lt_of_lt_of_le (I2_lt k x y) ?_
    have : (4 : Nat) ^ k ≤ 4 ^ 32 := Nat.pow_le_pow_right (by omega) hk
    exact Nat.le_trans this (by decide)
  rw [Nat.mod_eq_of_lt hI] at h
  exact h

theorem D3toD1_eq (k : Nat) (hk : k ≤ 21) {x y z : Nat} (hx : x < 2 ^ k) (hy : y < 2 ^ k) (hz : z < 2 ^ k) :
    D3toD1 (2 ^ k) x y z = I3 k x y z := by
  have h := d3Loop_eq k (by omega) x y z 0
  have hlt := d3Loop_lt (2 ^ k / 2) x y z 0 (by decide)
  rw [Nat.mod_eq_of_lt hlt, Nat.mod_eq_of_lt hx, Nat.mod_eq_of_lt hy, Nat.mod_eq_of_lt hz, Nat.zero_add] at h
  have hI : I3 k x y z < W := by
    refine Nat.lt_of_lt_of_le (I3_lt k x y z) ?_
    have : (8 : Nat) ^ k ≤ 8 ^ 21 := Nat.pow_le_pow_right (by omega) hk
    exact Nat.le_trans this (by decide)
  rw [Nat.mod_eq_of_lt hI] at h
  exact h

theorem R2_lt {s x y : Nat} (hx : x < s) (hy : y < s) (rx ry : Nat) :
    (R2 s x y rx ry).1 < s ∧ (R2 s x y rx ry).2 < s := by
  unfold R2
  split
  · split <;> simp only <;> omega
  · exact ⟨hx, hy⟩

theorem R3_lt {s x y z : Nat} (hx : x < s) (hy : y < s) (hz : z < s) (rx ry rz : Nat) :
    (R3 s x y z rx ry rz).1 < s ∧ (R3 s x y z rx ry rz).2.1 < s ∧ (R3 s x y z rx ry rz).2.2 < s := by
  unfold R3
  split
  · split
    · simp only; omega
    · split <;> simp only <;> omega
  · split <;> simp only <;> omega

theorem R2_inv {s x y : Nat} (hx : x < s) (hy : y < s) (rx ry : Nat) :
    R2 s (R2 s x y rx ry).1 (R2 s x y rx ry).2 rx ry = (x, y) := by
  unfold R2
  by_cases h : ry = 0
  · by_cases h2 : rx = 1
    · simp only [h, h2, if_true, Prod.mk.injEq, true_and, and_true]; omega
    · simp only [h, h2, if_true, if_false]
  · simp only [h, if_false]

theorem R3_inv {s x y z : Nat} (hx : x < s) (hy : y < s) (hz : z < s) (rx ry rz : Nat) :
    R3 s (R3 s x y z rx ry rz).1 (R3 s x y z rx ry rz).2.1 (R3 s x y z rx ry rz).2.2 rx ry rz = (x, y, z) := by
  unfold R3
  by_cases h : rz = 0
  · by_cases h2 : rx = 1
    · simp only [h, h2, if_true, Prod.mk.injEq, true_and, and_true]; omega
    · by_cases h3 : ry = 1
      · simp only [h, h2, h3, if_true, if_false, Prod.mk.injEq, true_and, and_true]; omega
      · simp only [h, h2, h3, if_true, if_false]
  · by_cases h3 : ry = 1
    · simp only [h, h3, if_true, if_false, Prod.mk.injEq, true_and, and_true]; omega
    · simp only [h, h3, if_false]

theorem P2_lt (k : Nat) : ∀ d, (P2 k d).1 < 2 ^ k ∧ (P2 k d).2 < 2 ^ k := by
  induction k with
  | zero => intro d; simp [P2]
  | succ k ih =>
      intro d
      simp only [P2]
      obtain ⟨h1, h2⟩ := ih (d % 4 ^ k)
      have h3 := R2_lt h1 h2 (d / 4 ^ k % 4 / 2) ((d / 4 ^ k % 4 ^^^ d / 4 ^ k % 4 / 2) % 2)
      have hr : d / 4 ^ k % 4 / 2 ≤ 1 := by omega
      have hr' : (d / 4 ^ k % 4 ^^^ d / 4 ^ k % 4 / 2) % 2 ≤ 1 := by omega
      have := Nat.mul_le_mul_left (2 ^ k) hr
      have := Nat.mul_le_mul_left (2 ^ k) hr'
      rw [Nat.pow_succ]; omega

theorem xor_le_one {a b : Nat} (ha : a ≤ 1) (hb : b ≤ 1) : a ^^^ b ≤ 1 := by
  rcases (by omega : a = 0 ∨ a = 1) with rfl | rfl <;> rcases (by omega : b = 0 ∨ b = 1) with rfl | rfl <;> decide

theorem P3_lt (k : Nat) : ∀ d, (P3 k d).1 < 2 ^ k ∧ (P3 k d).2.1 < 2 ^ k ∧ (P3 k d).2.2 < 2 ^ k := by
  induction k with
  | zero => intro d; simp [P3]
  | succ k ih =>
      intro d
      simp only [P3]
      obtain ⟨h1, h2, h2'⟩ := ih (d % 8 ^ k)
      have hq : d / 8 ^ k % 8 < 8 := Nat.mod_lt _ (by omega)
      generalize d / 8 ^ k % 8 = q at *
      have hrx := xor_le_one (a := q / 4) (b := q / 2 % 2) (by omega) (by omega)
      have hry : q / 4 ≤ 1 := by omega
      have hrz := xor_le_one (a := q / 2 % 2) (b := q % 2) (by omega) (by omega)
      generalize (q / 4 ^^^ q / 2 % 2) = rx at *
      generalize (q / 2 % 2 ^^^ q % 2) = rz at *
      generalize q / 4 = ry at *
      have h3 := R3_lt h1 h2 h2' rx ry rz
      have := Nat.mul_le_mul_left (2 ^ k) hrx
      have := Nat.mul_le_mul_left (2 ^ k) hry
      have := Nat.mul_le_mul_left (2 ^ k) hrz
      rw [Nat.pow_succ]; omega

/-! The loops of `D1toD2` / `D1toD3` compute `P2` / `P3`. -/

theorem one_and (t : Nat) : 1 &&& t = t % 2 := by rw [Nat.and_comm, Nat.and_one_is_mod]

theorem sub64_small {s x : Nat} (hs : s ≤ W) (hx : x < s) : sub64 (sub64 s 1) x = s - 1 - x := by
  unfold sub64 W at *; omega

theorem rotateD2_small {s x y : Nat} (hs : s ≤ W) (hx : x < s) (hy : y < s) (rx ry : Nat) :
    rotateD2 s x y rx ry = R2 s x y rx ry := by
  unfold rotateD2 R2
  by_cases h : ry = 0
  · by_cases h2 : rx = 1
    · simp [h, h2, sub64_small hs hx, sub64_small hs hy]
    · simp [h, h2]
  · simp [h]

theorem rotateD3_small {s x y z : Nat} (hs : s ≤ W) (hx : x < s) (hy : y < s) (hz : z < s) (rx ry rz : Nat) :
    rotateD3 s x y z rx ry rz = R3 s x y z rx ry rz := by
  unfold rotateD3 R3
  by_cases h : rz = 0
  · by_cases h2 : rx = 1
    · simp [h, h2, sub64_small hs hx, sub64_small hs hz]
    · by_cases h3 : ry = 1
      · simp [h, h2, h3, sub64_small hs hy, sub64_small hs hz]
      · simp [h, h2, h3]
  · by_cases h3 : ry = 1
    · simp [h, h3, sub64_small hs hx, sub64_small hs hy]
    · simp [h, h3]

theorem add64_small {a b : Nat} (h : a + b < 2 ^ 63) : add64 a b = a + b := by
  unfold add64 W; omega

theorem xor_mod_two (a b : Nat) : (a ^^^ b) % 2 = (a + b) % 2 := by
  have h : (a ^^^ b).testBit 0 = (a.testBit 0 ^^ b.testBit 0) := Nat.testBit_xor ..
  simp only [Nat.testBit_zero] at h
  rcases Nat.mod_two_eq_zero_or_one a with ha | ha <;> rcases Nat.mod_two_eq_zero_or_one b with hb | hb <;>
    rcases Nat.mod_two_eq_zero_or_one (a ^^^ b) with hc | hc <;>
    simp [ha, hb, hc] at h <;> omega

theorem digit2_ry (t : Nat) : (t ^^^ t / 2 % 2) % 2 = (t % 4 ^^^ t % 4 / 2) % 2 := by
  rw [xor_mod_two, xor_mod_two]
  omega

theorem p2Loop_eq (m : Nat) : ∀ (j : Nat) (d : Nat) (hs : 0 < 2 ^ j), m + j ≤ 63 →
    p2Loop (2 ^ (m + j)) (2 ^ j) (d / 4 ^ j) (P2 j (d % 4 ^ j)).1 (P2 j (d % 4 ^ j)).2 hs = P2 (m + j) (d % 4 ^ (m + j)) := by
  induction m with
  | zero =>
      intro j d hs hk
      rw [p2Loop]; simp
  | succ m ih =>
      intro j d hs hk
      have hlt : 2 ^ j < 2 ^ (m + 1 + j) := Nat.pow_lt_pow_right (by omega) (by omega)
      have hW : 2 ^ (m + 1 + j) ≤ 2 ^ 63 := Nat.pow_le_pow_right (by omega) hk
      rw [p2Loop, if_pos hlt]
      have hp := P2_lt j (d % 4 ^ j)
      have hj : 2 ^ (j + 1) ≤ 2 ^ 63 := Nat.pow_le_pow_right (by omega) (by omega)
      have hj' : 2 ^ j ≤ W := by
        have : 2 ^ j ≤ 2 ^ 63 := Nat.pow_le_pow_right (by omega) (by omega)
        exact Nat.le_trans this (by decide)
      simp only [one_and, rotateD2_small hj' hp.1 hp.2]
      have e1 : d % 4 ^ (j + 1) / 4 ^ j % 4 = d / 4 ^ j % 4 := by
        rw [Nat.pow_succ, Nat.mod_mul_right_div_self, Nat.mod_mod]
      have e2 : d % 4 ^ (j + 1) % 4 ^ j = d % 4 ^ j := Nat.mod_mod_of_dvd _ ⟨4, by rw [Nat.pow_succ]⟩
      have e3 : d / 4 ^ j / 2 % 2 = d / 4 ^ j % 4 / 2 := by omega
      have hP : P2 (j + 1) (d % 4 ^ (j + 1)) =
          (add64 (R2 (2 ^ j) (P2 j (d % 4 ^ j)).1 (P2 j (d % 4 ^ j)).2 (d / 4 ^ j / 2 % 2)
              ((d / 4 ^ j ^^^ d / 4 ^ j / 2 % 2) % 2)).1 (2 ^ j * (d / 4 ^ j / 2 % 2)),
           add64 (R2 (2 ^ j) (P2 j (d % 4 ^ j)).1 (P2 j (d % 4 ^ j)).2 (d / 4 ^ j / 2 % 2)
              ((d / 4 ^ j ^^^ d / 4 ^ j / 2 % 2) % 2)).2 (2 ^ j * ((d / 4 ^ j ^^^ d / 4 ^ j / 2 % 2) % 2))) := by
        have hlt' := P2_lt (j + 1) (d % 4 ^ (j + 1))
        have hex : P2 (j + 1) (d % 4 ^ (j + 1)) =
          ((R2 (2 ^ j) (P2 j (d % 4 ^ j)).1 (P2 j (d % 4 ^ j)).2 (d / 4 ^ j / 2 % 2)
              ((d / 4 ^ j ^^^ d / 4 ^ j / 2 % 2) % 2)).1 + (2 ^ j * (d / 4 ^ j / 2 % 2)),
           (R2 (2 ^ j) (P2 j (d % 4 ^ j)).1 (P2 j (d % 4 ^ j)).2 (d / 4 ^ j / 2 % 2)
              ((d / 4 ^ j ^^^ d / 4 ^ j / 2 % 2) % 2)).2 + (2 ^ j * ((d / 4 ^ j ^^^ d / 4 ^ j / 2 % 2) % 2))) := by
          simp only [P2, e1, e2]
          rw [digit2_ry, e3]
        rw [hex] at hlt' ⊢
        simp only at hlt'
        rw [add64_small (by omega), add64_small (by omega)]
      have := ih (j + 1) d (by rw [Nat.pow_succ]; omega) (by omega)
      rw [show m + 1 + j = m + (j + 1) by omega]
      rw [← this]
      congr 1
      · rw [Nat.div_div_eq_div_mul, Nat.pow_succ]
      · rw [hP]
      · rw [hP]

theorem p3Loop_eq (m : Nat) : ∀ (j : Nat) (d : Nat) (hs : 0 < 2 ^ j), m + j ≤ 63 →
    p3Loop (2 ^ (m + j)) (2 ^ j) (d / 8 ^ j) (P3 j (d % 8 ^ j)).1 (P3 j (d % 8 ^ j)).2.1 (P3 j (d % 8 ^ j)).2.2 hs
      = P3 (m + j) (d % 8 ^ (m + j)) := by
  induction m with
  | zero =>
      intro j d hs hk
      rw [p3Loop]; simp
  | succ m ih =>
      intro j d hs hk
      have hlt : 2 ^ j < 2 ^ (m + 1 + j) := Nat.pow_lt_pow_right (by omega) (by omega)
      have hW : 2 ^ (m + 1 + j) ≤ 2 ^ 63 := Nat.pow_le_pow_right (by omega) hk
      rw [p3Loop, if_pos hlt]
      have hp := P3_lt j (d % 8 ^ j)
      have hj : 2 ^ (j + 1) ≤ 2 ^ 63 := Nat.pow_le_pow_right (by omega) (by omega)
      have hj' : 2 ^ j ≤ W := by
        have : 2 ^ j ≤ 2 ^ 63 := Nat.pow_le_pow_right (by omega) (by omega)
        exact Nat.le_trans this (by decide)
      simp only [one_and, rotateD3_small hj' hp.1 hp.2.1 hp.2.2]
      have e1 : d % 8 ^ (j + 1) / 8 ^ j % 8 = d / 8 ^ j % 8 := by
        rw [Nat.pow_succ, Nat.mod_mul_right_div_self, Nat.mod_mod]
      have e2 : d % 8 ^ (j + 1) % 8 ^ j = d % 8 ^ j := Nat.mod_mod_of_dvd _ ⟨8, by rw [Nat.pow_succ]⟩
      have e3 : d / 8 ^ j % 8 / 4 = d / 8 ^ j / 4 % 2 := by omega
      have e4 : d / 8 ^ j % 8 / 2 % 2 = d / 8 ^ j / 2 % 2 := by omega
      have e5 : d / 8 ^ j % 8 % 2 = d / 8 ^ j % 2 := by omega
      have hlt' := P3_lt (j + 1) (d % 8 ^ (j + 1))
      have := ih (j + 1) d (by rw [Nat.pow_succ]; omega) (by omega)
      rw [show m + 1 + j = m + (j + 1) by omega]
      rw [← this]
      simp only [P3, e1, e2, e3, e4, e5] at hlt' ⊢
      congr 1
      · rw [Nat.div_div_eq_div_mul, Nat.pow_succ]
      · exact add64_small (Nat.lt_of_lt_of_le hlt'.1 hj)
      · exact add64_small (Nat.lt_of_lt_of_le hlt'.2.1 hj)
      · exact add64_small (Nat.lt_of_lt_of_le hlt'.2.2 hj)

theorem D1toD2_eq (k : Nat) (hk : k ≤ 63) (d : Nat) : D1toD2 (2 ^ k) d = P2 k (d % 4 ^ k) := by
  have := p2Loop_eq k 0 d (by omega) (by omega)
  simp only [Nat.pow_zero, Nat.div_one, Nat.add_zero, P2] at this
  exact this

theorem D1toD3_eq (k : Nat) (hk : k ≤ 63) (d : Nat) : D1toD3 (2 ^ k) d = P3 k (d % 8 ^ k) := by
  have := p3Loop_eq k 0 d (by omega) (by omega)
  simp only [Nat.pow_zero, Nat.div_one, Nat.add_zero, P3] at this
  exact this

/-! ### Inverses -/

theorem split_lo {a s r : Nat} (ha : a < s) : (a + s * r) % s = a := by
  rw [Nat.add_mul_mod_self_left, Nat.mod_eq_of_lt ha]

theorem split_hi {a s r : Nat} (ha : a < s) (hr : r ≤ 1) : (a + s * r) / s % 2 = r := by
  rw [Nat.add_mul_div_left _ _ (by omega), Nat.div_eq_of_lt ha]; omega

theorem digit2_enc (q : Nat) (hq : q < 4) : (3 * (q / 2)) ^^^ ((q ^^^ q / 2) % 2) = q := by
  rcases (by omega : q = 0 ∨ q = 1 ∨ q = 2 ∨ q = 3) with rfl | rfl | rfl | rfl <;> decide

theorem digit3_enc (q : Nat) (hq : q < 8) :
    4 * (q / 4) + ((3 * ((q / 4) ^^^ ((q / 4) ^^^ (q / 2 % 2)))) ^^^ ((q / 2 % 2) ^^^ (q % 2))) = q := by
  rcases (by omega : q = 0 ∨ q = 1 ∨ q = 2 ∨ q = 3 ∨ q = 4 ∨ q = 5 ∨ q = 6 ∨ q = 7) with
    rfl | rfl | rfl | rfl | rfl | rfl | rfl | rfl <;> decide

theorem digit2_dec (rx ry : Nat) (h1 : rx ≤ 1) (h2 : ry ≤ 1) :
    ((3 * rx) ^^^ ry) < 4 ∧ ((3 * rx) ^^^ ry) / 2 = rx ∧ ((((3 * rx) ^^^ ry) ^^^ rx) % 2) = ry := by
  rcases (by omega : rx = 0 ∨ rx = 1) with rfl | rfl <;> rcases (by omega : ry = 0 ∨ ry = 1) with rfl | rfl <;> decide

theorem digit3_dec (rx ry rz : Nat) (h1 : rx ≤ 1) (h2 : ry ≤ 1) (h3 : rz ≤ 1) (q : Nat)
    (hq : q = 4 * ry + ((3 * (ry ^^^ rx)) ^^^ rz)) :
    q < 8 ∧ q / 4 = ry ∧ (ry ^^^ (q / 2 % 2)) = rx ∧ ((q / 2 % 2) ^^^ (q % 2)) = rz := by
  subst hq
  rcases (by omega : rx = 0 ∨ rx = 1) with rfl | rfl <;> rcases (by omega : ry = 0 ∨ ry = 1) with rfl | rfl <;>
    rcases (by omega : rz = 0 ∨ rz = 1) with rfl | rfl <;> decide

theorem I2_P2 (k : Nat) : ∀ d, d < 4 ^ k → I2 k (P2 k d).1 (P2 k d).2 = d := by
  induction k with
  | zero => intro d hd; simp [I2] at *; omega
  | succ k ih =>
      intro d hd
      have hpos : 0 < 4 ^ k := Nat.pow_pos (by omega)
      have hlt := P2_lt k (d % 4 ^ k)
      simp only [P2]
      have hq : d / 4 ^ k % 4 < 4 := Nat.mod_lt _ (by omega)
      have hd' : d = d / 4 ^ k % 4 * 4 ^ k + d % 4 ^ k := by
        have : d / 4 ^ k < 4 := Nat.div_lt_of_lt_mul (by rw [Nat.pow_succ] at hd; exact hd)
        rw [Nat.mod_eq_of_lt this, Nat.mul_comm, Nat.div_add_mod]
      have he := digit2_enc _ hq
      have ih' := ih (d % 4 ^ k) (Nat.mod_lt _ hpos)
      generalize d / 4 ^ k % 4 = q at *
      have hrx : q / 2 ≤ 1 := by omega
      have hry : (q ^^^ q / 2) % 2 ≤ 1 := by omega
      generalize q / 2 = rx at *
      generalize (q ^^^ rx) % 2 = ry at *
      have hR := R2_lt hlt.1 hlt.2 rx ry
      have hi := R2_inv hlt.1 hlt.2 rx ry
      simp only [I2, split_lo hR.1, split_lo hR.2, split_hi hR.1 hrx, split_hi hR.2 hry, hi, he, ih']
      exact hd'.symm

theorem I3_P3 (k : Nat) : ∀ d, d < 8 ^ k → I3 k (P3 k d).1 (P3 k d).2.1 (P3 k d).2.2 = d := by
  induction k with
  | zero => intro d hd; simp [I3] at *; omega
  | succ k ih =>
      intro d hd
      have hpos : 0 < 8 ^ k := Nat.pow_pos (by omega)
      have hlt := P3_lt k (d % 8 ^ k)
      simp only [P3]
      have hq : d / 8 ^ k % 8 < 8 := Nat.mod_lt _ (by omega)
      have hd' : d = d / 8 ^ k % 8 * 8 ^ k + d % 8 ^ k := by
        have : d / 8 ^ k < 8 := Nat.div_lt_of_lt_mul (by rw [Nat.pow_succ] at hd; exact hd)
        rw [Nat.mod_eq_of_lt this, Nat.mul_comm, Nat.div_add_mod]
      have he := digit3_enc _ hq
      have ih' := ih (d % 8 ^ k) (Nat.mod_lt _ hpos)
      generalize d / 8 ^ k % 8 = q at *
      have hrx := xor_le_one (a := q / 4) (b := q / 2 % 2) (by omega) (by omega)
      have hry : q / 4 ≤ 1 := by omega
      have hrz := xor_le_one (a := q / 2 % 2) (b := q % 2) (by omega) (by omega)
      generalize (q / 4 ^^^ q / 2 % 2) = rx at *
      generalize (q / 2 % 2 ^^^ q % 2) = rz at *
      generalize q / 4 = ry at *
      have hR := R3_lt hlt.1 hlt.2.1 hlt.2.2 rx ry rz
      have hi := R3_inv hlt.1 hlt.2.1 hlt.2.2 rx ry rz
      simp only [I3, split_lo hR.1, split_lo hR.2.1, split_lo hR.2.2, split_hi hR.1 hrx, split_hi hR.2.1 hry,
        split_hi hR.2.2 hrz, hi, he, ih']
      exact hd'.symm

theorem mul_add_div_mod {q s r m : Nat} (hr : r < s) (hq : q < m) : (q * s + r) / s % m = q ∧ (q * s + r) % s = r := by
  constructor
  · rw [Nat.mul_comm, Nat.mul_add_div (by omega), Nat.div_eq_of_lt hr, Nat.add_zero, Nat.mod_eq_of_lt hq]
  · rw [Nat.mul_comm, Nat.mul_add_mod, Nat.mod_eq_of_lt hr]

theorem P2_I2 (k : Nat) : ∀ x y, x < 2 ^ k → y < 2 ^ k → P2 k (I2 k x y) = (x, y) := by
  induction k with
  | zero => intro x y hx hy; simp [P2] at *; omega
  | succ k ih =>
      intro x y hx hy
      have hpos : 0 < 2 ^ k := Nat.pow_pos (by omega)
      have hrx : x / 2 ^ k % 2 ≤ 1 := by omega
      have hry : y / 2 ^ k % 2 ≤ 1 := by omega
      have hxd : x = x % 2 ^ k + 2 ^ k * (x / 2 ^ k % 2) := by
        have : x / 2 ^ k < 2 := Nat.div_lt_of_lt_mul (by rw [Nat.pow_succ] at hx; exact hx)
        rw [Nat.mod_eq_of_lt this, Nat.mod_add_div]
      have hyd : y = y % 2 ^ k + 2 ^ k * (y / 2 ^ k % 2) := by
        have : y / 2 ^ k < 2 := Nat.div_lt_of_lt_mul (by rw [Nat.pow_succ] at hy; exact hy)
        rw [Nat.mod_eq_of_lt this, Nat.mod_add_div]
      have hxl := Nat.mod_lt x hpos
      have hyl := Nat.mod_lt y hpos
      simp only [I2]
      generalize x / 2 ^ k % 2 = rx at *
      generalize y / 2 ^ k % 2 = ry at *
      generalize x % 2 ^ k = a at *
      generalize y % 2 ^ k = b at *
      obtain ⟨hq, e1, e2⟩ := digit2_dec rx ry hrx hry
      have hR := R2_lt hxl hyl rx ry
      have hi := R2_inv hxl hyl rx ry
      have ih' := ih _ _ hR.1 hR.2
      have hs := mul_add_div_mod (I2_lt k (R2 (2 ^ k) a b rx ry).1 (R2 (2 ^ k) a b rx ry).2) hq
      simp only [P2, hs.1, hs.2, e1, e2, ih', hi]
      rw [hxd, hyd]

theorem P3_I3 (k : Nat) : ∀ x y z, x < 2 ^ k → y < 2 ^ k → z < 2 ^ k → P3 k (I3 k x y z) = (x, y, z) := by
  induction k with
  | zero => intro x y z hx hy hz; simp [P3] at *; omega
  | succ k ih =>
      intro x y z hx hy hz
      have hpos : 0 < 2 ^ k := Nat.pow_pos (by omega)
      have hrx : x / 2 ^ k % 2 ≤ 1 := by omega
      have hry : y / 2 ^ k % 2 ≤ 1 := by omega
      have hrz : z / 2 ^ k % 2 ≤ 1 := by omega
      have hd : ∀ x, x < 2 ^ (k + 1) → x = x % 2 ^ k + 2 ^ k * (x / 2 ^ k % 2) := by
        intro x hx
        have : x / 2 ^ k < 2 := Nat.div_lt_of_lt_mul (by rw [Nat.pow_succ] at hx; exact hx)
        rw [Nat.mod_eq_of_lt this, Nat.mod_add_div]
      have hxd := hd x hx
      have hyd := hd y hy
      have hzd := hd z hz
      have hxl := Nat.mod_lt x hpos
      have hyl := Nat.mod_lt y hpos
      have hzl := Nat.mod_lt z hpos
      simp only [I3]
      generalize x / 2 ^ k % 2 = rx at *
      generalize y / 2 ^ k % 2 = ry at *
      generalize z / 2 ^ k % 2 = rz at *
      generalize x % 2 ^ k = a at *
      generalize y % 2 ^ k = b at *
      generalize z % 2 ^ k = c at *
      obtain ⟨hq, e1, e2, e3⟩ := digit3_dec rx ry rz hrx hry hrz _ rfl
      have hR := R3_lt hxl hyl hzl rx ry rz
      have hi := R3_inv hxl hyl hzl rx ry rz
      have ih' := ih _ _ _ hR.1 hR.2.1 hR.2.2
      have hs := mul_add_div_mod (I3_lt k (R3 (2 ^ k) a b c rx ry rz).1 (R3 (2 ^ k) a b c rx ry rz).2.1
        (R3 (2 ^ k) a b c rx ry rz).2.2) hq
      simp only [P3, hs.1, hs.2, e1, e2, e3, ih', hi]
      rw [hxd, hyd, hzd]

/-! ### Nesting -/

theorem R2_half {s x y : Nat} (hx : x < 2 * s) (hy : y < 2 * s) (rx ry : Nat) :
    ((R2 (2 * s) x y rx ry).1 / 2, (R2 (2 * s) x y rx ry).2 / 2) = R2 s (x / 2) (y / 2) rx ry := by
  unfold R2
  by_cases h : ry = 0
  · by_cases h2 : rx = 1
    · simp only [h, h2, if_true, Prod.mk.injEq]; omega
    · simp only [h, h2, if_true, if_false]
  · simp only [h, if_false]

theorem R3_half {s x y z : Nat} (hx : x < 2 * s) (hy : y < 2 * s) (hz : z < 2 * s) (rx ry rz : Nat) :
    ((R3 (2 * s) x y z rx ry rz).1 / 2, (R3 (2 * s) x y z rx ry rz).2.1 / 2, (R3 (2 * s) x y z rx ry rz).2.2 / 2)
      = R3 s (x / 2) (y / 2) (z / 2) rx ry rz := by
  unfold R3
  by_cases h : rz = 0
  · by_cases h2 : rx = 1
    · simp only [h, h2, if_true, Prod.mk.injEq, true_and, and_true]; omega
    · by_cases h3 : ry = 1
      · simp only [h, h2, h3, if_true, if_false, Prod.mk.injEq, true_and, and_true]; omega
      · simp only [h, h2, h3, if_true, if_false]
  · by_cases h3 : ry = 1
    · simp only [h, h3, if_true, if_false, Prod.mk.injEq, true_and, and_true]; omega
    · simp only [h, h3, if_false]

theorem half_hi (x k : Nat) : x / 2 ^ (k + 1) = x / 2 / 2 ^ k := by
  rw [Nat.pow_succ, Nat.mul_comm, Nat.div_div_eq_div_mul]

theorem half_lo (x k : Nat) : x % 2 ^ (k + 1) / 2 = x / 2 % 2 ^ k := by
  rw [Nat.pow_succ, Nat.mul_comm, Nat.mod_mul_right_div_self]

theorem I2_nested (k : Nat) : ∀ x y, I2 (k + 1) x y / 4 = I2 k (x / 2) (y / 2) := by
  induction k with
  | zero =>
      intro x y
      have := I2_lt 1 x y
      simp only [I2] at this ⊢; omega
  | succ k ih =>
      intro x y
      rw [I2]
      have h1 : 2 ^ (k + 1) = 2 * 2 ^ k := by rw [Nat.pow_succ, Nat.mul_comm]
      have hh := R2_half (s := 2 ^ k) (x := x % 2 ^ (k + 1)) (y := y % 2 ^ (k + 1))
        (by rw [← h1]; exact Nat.mod_lt _ (by rw [h1]; have := Nat.pow_pos (n := k) (show 0 < 2 by omega); omega))
        (by rw [← h1]; exact Nat.mod_lt _ (by rw [h1]; have := Nat.pow_pos (n := k) (show 0 < 2 by omega); omega))
        (x / 2 ^ (k + 1) % 2) (y / 2 ^ (k + 1) % 2)
      rw [← h1, half_lo, half_lo] at hh
      have e : ∀ a b : Nat, (a * 4 ^ (k + 1) + b) / 4 = a * 4 ^ k + b / 4 := by
        intro a b
        rw [Nat.pow_succ, ← Nat.mul_assoc]; omega
      rw [e, ih]
      rw [Prod.ext_iff] at hh
      simp only at hh
      rw [hh.1, hh.2, half_hi, half_hi]
      rfl

theorem I3_nested (k : Nat) : ∀ x y z, I3 (k + 1) x y z / 8 = I3 k (x / 2) (y / 2) (z / 2) := by
  induction k with
  | zero =>
      intro x y z
      have := I3_lt 1 x y z
      simp only [I3] at this ⊢; omega
  | succ k ih =>
      intro x y z
      rw [I3]
      have h1 : 2 ^ (k + 1) = 2 * 2 ^ k := by rw [Nat.pow_succ, Nat.mul_comm]
      have hl : ∀ x, x % 2 ^ (k + 1) < 2 * 2 ^ k := by
        intro x
        rw [← h1]; exact Nat.mod_lt _ (by rw [h1]; have := Nat.pow_pos (n := k) (show 0 < 2 by omega); omega)
      have hh := R3_half (hl x) (hl y) (hl z)
        (x / 2 ^ (k + 1) % 2) (y / 2 ^ (k + 1) % 2) (z / 2 ^ (k + 1) % 2)
      rw [← h1, half_lo, half_lo, half_lo] at hh
      have e : ∀ a b : Nat, (a * 8 ^ (k + 1) + b) / 8 = a * 8 ^ k + b / 8 := by
        intro a b
        rw [Nat.pow_succ, ← Nat.mul_assoc]; omega
      rw [e, ih]
      rw [Prod.ext_iff, Prod.ext_iff] at hh
      simp only at hh
      rw [hh.1, hh.2.1, hh.2.2, half_hi, half_hi, half_hi]
      rfl

/-! ### Continuity -/

theorem P2_zero (k : Nat) : P2 k 0 = (0, 0) := by
  induction k with
  | zero => rfl
  | succ k ih => simp [P2, ih, R2]

theorem P3_zero (k : Nat) : P3 k 0 = (0, 0, 0) := by
  induction k with
  | zero => rfl
  | succ k ih => simp [P3, ih, R3]

theorem last_div_mod (m s : Nat) (hs : 0 < s) (hm : 0 < m) :
    (s * m - 1) / s % m = m - 1 ∧ (s * m - 1) % s = s - 1 := by
  obtain ⟨m, rfl⟩ : ∃ m', m = m' + 1 := ⟨m - 1, by omega⟩
  have : s * (m + 1) - 1 = m * s + (s - 1) := by rw [Nat.mul_add, Nat.mul_comm]; omega
  rw [this]
  exact mul_add_div_mod (by omega) (by omega)

theorem P2_last (k : Nat) : P2 k (4 ^ k - 1) = (2 ^ k - 1, 0) := by
  induction k with
  | zero => rfl
  | succ k ih =>
      have h := last_div_mod 4 (4 ^ k) (Nat.pow_pos (by omega)) (by omega)
      rw [← Nat.pow_succ] at h
      have hp : 0 < 2 ^ k := Nat.pow_pos (by omega)
      simp only [P2, h.1, h.2, ih]
      simp [R2, Nat.pow_succ]
      omega

theorem P3_last (k : Nat) : P3 k (8 ^ k - 1) = (0, 2 ^ k - 1, 0) := by
  induction k with
  | zero => rfl
  | succ k ih =>
      have h := last_div_mod 8 (8 ^ k) (Nat.pow_pos (by omega)) (by omega)
      rw [← Nat.pow_succ] at h
      have hp : 0 < 2 ^ k := Nat.pow_pos (by omega)
      simp only [P3, h.1, h.2, ih]
      simp [R3, Nat.pow_succ]
      omega

/-- Face neighbours, written with natural numbers. -/
def Adj2 (p q : Nat × Nat) : Prop :=
  (p.1 = q.1 ∧ (p.2 = q.2 + 1 ∨ q.2 = p.2 + 1)) ∨ (p.2 = q.2 ∧ (p.1 = q.1 + 1 ∨ q.1 = p.1 + 1))

def Adj3 (p q : Nat × Nat × Nat) : Prop :=
  (p.1 = q.1 ∧ p.2.1 = q.2.1 ∧ (p.2.2 = q.2.2 + 1 ∨ q.2.2 = p.2.2 + 1)) ∨
  (p.1 = q.1 ∧ p.2.2 = q.2.2 ∧ (p.2.1 = q.2.1 + 1 ∨ q.2.1 = p.2.1 + 1)) ∨
  (p.2.1 = q.2.1 ∧ p.2.2 = q.2.2 ∧ (p.1 = q.1 + 1 ∨ q.1 = p.1 + 1))

theorem R2_adj {s : Nat} {p q : Nat × Nat} (hp : p.1 < s ∧ p.2 < s) (hq : q.1 < s ∧ q.2 < s) (h : Adj2 p q) (rx ry : Nat) :
    Adj2 (R2 s p.1 p.2 rx ry) (R2 s q.1 q.2 rx ry) := by
  unfold Adj2 R2 at *
  split
  · split <;> simp only <;> omega
  · simp only; omega

theorem R3_adj {s : Nat} {p q : Nat × Nat × Nat} (hp : p.1 < s ∧ p.2.1 < s ∧ p.2.2 < s)
    (hq : q.1 < s ∧ q.2.1 < s ∧ q.2.2 < s) (h : Adj3 p q) (rx ry rz : Nat) :
    Adj3 (R3 s p.1 p.2.1 p.2.2 rx ry rz) (R3 s q.1 q.2.1 q.2.2 rx ry rz) := by
  unfold Adj3 R3 at *
  split
  · split
    · simp only; omega
    · split <;> simp only <;> omega
  · split <;> simp only <;> omega

theorem succ_split {d s m : Nat} (hs : 0 < s) (h : d + 1 < s * m) :
    (d % s + 1 < s ∧ (d + 1) % s = d % s + 1 ∧ (d + 1) / s % m = d / s % m) ∨
    (d % s = s - 1 ∧ (d + 1) % s = 0 ∧ (d + 1) / s % m = d / s % m + 1 ∧ d / s % m + 1 < m) := by
  have hdm := Nat.div_add_mod d s
  have hml := Nat.mod_lt d hs
  by_cases hc : d % s + 1 < s
  · left
    have : d + 1 = d / s * s + (d % s + 1) := by rw [Nat.mul_comm]; omega
    refine ⟨hc, ?_, ?_⟩
    · rw [this, Nat.mul_comm, Nat.mul_add_mod, Nat.mod_eq_of_lt hc]
    · rw [this, Nat.mul_comm, Nat.mul_add_div hs, Nat.div_eq_of_lt hc, Nat.add_zero]
  · right
    have hq : d + 1 = (d / s + 1) * s := by rw [Nat.add_mul, Nat.mul_comm]; omega
    have hlt : d / s + 1 < m := by
      rw [hq, Nat.mul_comm] at h
      exact Nat.lt_of_mul_lt_mul_left h
    refine ⟨by omega, ?_, ?_, ?_⟩
    · rw [hq, Nat.mul_mod_left]
    · rw [hq, Nat.mul_div_cancel _ hs, Nat.mod_eq_of_lt hlt, Nat.mod_eq_of_lt (by omega)]
    · rw [Nat.mod_eq_of_lt (by omega)]; exact hlt

theorem P2_adj (k : Nat) : ∀ d, d + 1 < 4 ^ k → Adj2 (P2 k d) (P2 k (d + 1)) := by
  induction k with
  | zero => intro d hd; simp at hd
  | succ k ih =>
      intro d hd
      have hp : 0 < 2 ^ k := Nat.pow_pos (by omega)
      rcases succ_split (Nat.pow_pos (n := k) (show 0 < 4 by omega)) (by rw [Nat.pow_succ] at hd; exact hd) with
        ⟨h1, h2, h3⟩ | ⟨h1, h2, h3, h4⟩
      · simp only [P2, h2, h3]
        have := R2_adj (P2_lt k _) (P2_lt k _) (ih _ h1) (d / 4 ^ k % 4 / 2) ((d / 4 ^ k % 4 ^^^ d / 4 ^ k % 4 / 2) % 2)
        unfold Adj2 at this ⊢
        simp only at this ⊢
        omega
      · simp only [P2, h1, h2, h3, P2_last, P2_zero]
        generalize d / 4 ^ k % 4 = q at *
        rcases (by omega : q = 0 ∨ q = 1 ∨ q = 2) with rfl | rfl | rfl <;>
          simp [R2, Adj2] <;> omega

theorem P3_adj (k : Nat) : ∀ d, d + 1 < 8 ^ k → Adj3 (P3 k d) (P3 k (d + 1)) := by
  induction k with
  | zero => intro d hd; simp at hd
  | succ k ih =>
      intro d hd
      have hp : 0 < 2 ^ k := Nat.pow_pos (by omega)
      rcases succ_split (Nat.pow_pos (n := k) (show 0 < 8 by omega)) (by rw [Nat.pow_succ] at hd; exact hd) with
        ⟨h1, h2, h3⟩ | ⟨h1, h2, h3, h4⟩
      · simp only [P3, h2, h3]
        have := R3_adj (P3_lt k _) (P3_lt k _) (ih _ h1) ((d / 8 ^ k % 8 / 4) ^^^ (d / 8 ^ k % 8 / 2 % 2))
          (d / 8 ^ k % 8 / 4) ((d / 8 ^ k % 8 / 2 % 2) ^^^ (d / 8 ^ k % 8 % 2))
        unfold Adj3 at this ⊢
        simp only at this ⊢
        omega
      · simp only [P3, h1, h2, h3, P3_last, P3_zero]
        generalize d / 8 ^ k % 8 = q at *
        rcases (by omega : q = 0 ∨ q = 1 ∨ q = 2 ∨ q = 3 ∨ q = 4 ∨ q = 5 ∨ q = 6) with
          rfl | rfl | rfl | rfl | rfl | rfl | rfl <;>
          simp [R3, Adj3] <;> omega

end Verif.Hilbert
