import Verif.Model.CoarseSpace
import Verif.Proof.DualSync
/-! Ordered maps with keys below a bound, as partial functions. -/
namespace Verif.Feti

variable {V : Type}

namespace OMap

/-- The pairs of the partial function `F` with keys `a, …, a + n - 1`. -/
def pairs (a n : Nat) (F : Nat → Option V) : OMap V := (List.range' a n).filterMap fun k => (F k).map fun v => (k, v)

/-- The map of the partial function `F` with keys below `N`. -/
def ofFn (N : Nat) (F : Nat → Option V) : OMap V := pairs 0 N F

theorem pairs_zero (a : Nat) (F : Nat → Option V) : pairs a 0 F = [] := rfl

theorem pairs_succ (a n : Nat) (F : Nat → Option V) : pairs a (n + 1) F = ((F a).map fun v => (a, v)).toList ++ pairs (a + 1) n F := by
  unfold pairs
  rw [List.range'_succ, List.filterMap_cons]
  cases F a <;> rfl

theorem pairs_add (a n m : Nat) (F : Nat → Option V) : pairs a (n + m) F = pairs a n F ++ pairs (a + n) m F := by
  unfold pairs
  rw [← List.filterMap_append, List.range'_append_1]

theorem pairs_congr {a n : Nat} {F G : Nat → Option V} (h : ∀ k, a ≤ k → k < a + n → F k = G k) : pairs a n F = pairs a n G := by
  unfold pairs
  apply List.filterMap_congr
  intro k hk
  have := List.mem_range'_1.1 hk
  rw [h k (by omega) (by omega)]

theorem ofFn_congr {n : Nat} {F G : Nat → Option V} (h : ∀ k, k < n → F k = G k) : ofFn n F = ofFn n G := pairs_congr fun k _ hk => h k (by omega)

theorem ofFn_none (N : Nat) : ofFn N (fun _ => (none : Option V)) = [] := by
  unfold ofFn pairs
  simp

theorem mem_pairs {a n k : Nat} {v : V} {F : Nat → Option V} : (k, v) ∈ pairs a n F ↔ (a ≤ k ∧ k < a + n) ∧ F k = some v := by
  unfold pairs
  rw [List.mem_filterMap]
  constructor
  · rintro ⟨j, hj, e⟩
    obtain ⟨w, hw, e⟩ := Option.map_eq_some_iff.1 e
    cases e
    have := List.mem_range'_1.1 hj
    exact ⟨⟨by omega, by omega⟩, hw⟩
  · rintro ⟨hk, e⟩
    exact ⟨k, List.mem_range'_1.2 ⟨hk.1, hk.2⟩, by rw [e]; rfl⟩

theorem mem_ofFn {N k : Nat} {v : V} {F : Nat → Option V} : (k, v) ∈ ofFn N F ↔ k < N ∧ F k = some v := by
  unfold ofFn
  rw [mem_pairs]
  constructor
  · rintro ⟨h, e⟩; exact ⟨by omega, e⟩
  · rintro ⟨h, e⟩; exact ⟨⟨by omega, by omega⟩, e⟩

theorem find_pairs {n : Nat} : ∀ {a k : Nat} {F : Nat → Option V}, find (pairs a n F) k = if a ≤ k ∧ k < a + n then F k else none := by
  induction n with
  | zero => intro a k F; rw [pairs_zero, if_neg (by omega)]; rfl
  | succ n ih =>
      intro a k F
      rw [pairs_succ]
      by_cases h : a = k
      · subst h
        rw [if_pos (by omega)]
        cases e : F a with
        | none =>
            show find (pairs (a + 1) n F) a = none
            rw [ih, if_neg (by omega)]
        | some v => show (if a = a then some v else _) = some v; rw [if_pos rfl]
      · have e' : find (((F a).map fun v => (a, v)).toList ++ pairs (a + 1) n F) k = find (pairs (a + 1) n F) k := by
          cases F a with
          | none => rfl
          | some v => show (if a = k then some v else _) = _; rw [if_neg h]; rfl
        rw [e', ih]
        by_cases h' : a + 1 ≤ k ∧ k < a + 1 + n
        · rw [if_pos h', if_pos (by omega)]
        · rw [if_neg h', if_neg (by omega)]

theorem find_ofFn {N k : Nat} {F : Nat → Option V} : find (ofFn N F) k = if k < N then F k else none := by
  unfold ofFn
  rw [find_pairs]
  by_cases h : k < N
  · rw [if_pos (by omega), if_pos h]
  · rw [if_neg (by omega), if_neg h]

theorem alter_front (d : V) (k : Nat) (f : V → V) (m : OMap V) (h : ∀ x ∈ m, k < x.1) : alter d k f m = (k, f d) :: m := by
  cases m with
  | nil => rfl
  | cons x m =>
      show (if k < x.1 then _ else _) = _
      rw [if_pos (h x (List.mem_cons_self ..))]

theorem alter_pairs (d : V) (f : V → V) : ∀ {n a k : Nat} {F : Nat → Option V}, a ≤ k → k < a + n → alter d k f (pairs a n F) = pairs a n (upd F k (some (f ((F k).getD d)))) := by
  intro n
  induction n with
  | zero => intro a k F h1 h2; omega
  | succ n ih =>
      intro a k F h1 h2
      rw [pairs_succ, pairs_succ]
      by_cases h : k = a
      · subst h
        have e1 : upd F k (some (f ((F k).getD d))) k = some (f ((F k).getD d)) := if_pos rfl
        rw [e1]
        have e2 : pairs (k + 1) n (upd F k (some (f ((F k).getD d)))) = pairs (k + 1) n F := pairs_congr fun j hj _ => if_neg (by omega)
        rw [e2]
        cases e : F k with
        | none =>
            show alter d k f (pairs (k + 1) n F) = _
            rw [alter_front]
            · rfl
            · intro x hx
              obtain ⟨j, v⟩ := x
              have := (mem_pairs.1 hx).1.1
              show k < j
              omega
        | some v =>
            show (if k < k then _ else if k = k then (k, f v) :: pairs (k + 1) n F else _) = _
            rw [if_neg (by omega), if_pos rfl]
            rfl
      · have e1 : upd F k (some (f ((F k).getD d))) a = F a := if_neg (by omega)
        rw [e1, ← ih (by omega) (by omega)]
        cases e : F a with
        | none => rfl
        | some v =>
            show (if k < a then _ else if k = a then _ else _) = _
            rw [if_neg (by omega), if_neg h]
            rfl

theorem alter_ofFn (d : V) (f : V → V) {N k : Nat} {F : Nat → Option V} (h : k < N) : alter d k f (ofFn N F) = ofFn N (upd F k (some (f ((F k).getD d)))) :=
  alter_pairs d f (Nat.zero_le _) (by omega)

theorem pairs_none {a n : Nat} {F : Nat → Option V} (h : ∀ k, a ≤ k → k < a + n → F k = none) : pairs a n F = [] := by
  rw [pairs_congr (G := fun _ => none) h]
  unfold pairs
  simp

theorem pairs_some {a n : Nat} {F : Nat → Option V} {G : Nat → V} (h : ∀ k, a ≤ k → k < a + n → F k = some (G k)) : pairs a n F = (List.range' a n).map fun k => (k, G k) := by
  rw [pairs_congr (G := fun k => some (G k)) h]
  unfold pairs
  simp

/-- A map with the keys `a, …, a + n - 1`. -/
theorem ofFn_interval {N a n : Nat} {F : Nat → Option V} {G : Nat → V} (hN : a + n ≤ N) (h : ∀ k, a ≤ k → k < a + n → F k = some (G k)) (h0 : ∀ k, ¬(a ≤ k ∧ k < a + n) → F k = none) :
    ofFn N F = (List.range' a n).map fun k => (k, G k) := by
  unfold ofFn
  rw [show N = a + (n + (N - a - n)) by omega, pairs_add, pairs_add, pairs_none (fun k _ hk => h0 k (by omega)), Nat.zero_add, pairs_some h, pairs_none (fun k hk _ => h0 k (by omega))]
  simp

/-- The pairs of a function defined on the keys with `P`. -/
theorem pairs_filter {a n : Nat} {F : Nat → Option V} {G : Nat → V} {P : Nat → Bool} (h : ∀ k, a ≤ k → k < a + n → F k = if P k then some (G k) else none) :
    pairs a n F = ((List.range' a n).filter P).map fun k => (k, G k) := by
  rw [pairs_congr h]
  unfold pairs
  rw [← List.filterMap_eq_map, List.filterMap_filter]
  apply List.filterMap_congr
  intro k _
  dsimp only
  by_cases hP : P k = true
  · rw [if_pos hP, if_pos hP]; rfl
  · rw [if_neg hP, if_neg hP]; rfl

theorem ofFn_filter {N : Nat} {F : Nat → Option V} {G : Nat → V} {P : Nat → Bool} (h : ∀ k, k < N → F k = if P k then some (G k) else none) :
    ofFn N F = ((List.range N).filter P).map fun k => (k, G k) := by
  unfold ofFn
  rw [List.range_eq_range']
  exact pairs_filter fun k _ hk => h k (by omega)

end OMap

end Verif.Feti
