import Verif.Proof.MassExplicit
import Verif.Prop.ConductionKernel
/-!
Nodal values whose interpolation vanishes in all points of a rule vanish.
-/
namespace Verif.Fem

set_option hygiene false in
/-- The values of the tables. -/
macro "valuetable " t:ident : tactic => `(tactic| (
  interval_cases n <;> (
    simp only [valueOf, $t:ident, List.getElem?_cons_zero, List.getElem?_cons_succ, Option.map_some, Option.getD_some]
    refine Poly.mono (by poly) ?_
    decide)))

theorem terms4x2_value (n : Nat) (hn : n < 4) : Poly (each 2) (1, 1, 1) fun p => valueOf (terms4x2 (p.getD 0 0) (p.getD 1 0)) n := by valuetable terms4x2
theorem terms8x2_value (n : Nat) (hn : n < 8) : Poly (each 2) (2, 2, 2) fun p => valueOf (terms8x2 (p.getD 0 0) (p.getD 1 0)) n := by valuetable terms8x2
theorem terms8x3_value (n : Nat) (hn : n < 8) : Poly (each 3) (1, 1, 1) fun p => valueOf (terms8x3 (p.getD 0 0) (p.getD 1 0) (p.getD 2 0)) n := by valuetable terms8x3
theorem terms20x3_value (n : Nat) (hn : n < 20) : Poly (each 3) (2, 2, 2) fun p => valueOf (terms20x3 (p.getD 0 0) (p.getD 1 0) (p.getD 2 0)) n := by
  valuetable terms20x3

/-- The degrees of the values of the basis functions. -/
theorem terms_value (c : Code) (hd : 2 ≤ edim c) (n : Nat) (hn : n < (nOrder c).length) :
    Poly (each (edim c)) (kernelOrder c - 1, kernelOrder c - 1, kernelOrder c - 1) fun p => valueIn (degradedTerms c) n p := by
  cases c
  case line2 => exact absurd hd (by decide)
  case line3 => exact absurd hd (by decide)
  case triangle3 => exact poly_congr (terms4x2_value n hn) (by same2)
  case square4 => exact poly_congr (terms4x2_value n hn) (by same2)
  case triangle6 => exact poly_congr (terms8x2_value n hn) (by same2)
  case square8 => exact poly_congr (terms8x2_value n hn) (by same2)
  case tetra4 => exact poly_congr (terms8x3_value n hn) (by same3)
  case pyramid5 => exact poly_congr (terms8x3_value n hn) (by same3)
  case prisma6 => exact poly_congr (terms8x3_value n hn) (by same3)
  case hexa8 => exact poly_congr (terms8x3_value n hn) (by same3)
  case tetra10 => exact poly_congr (terms20x3_value n hn) (by same3)
  case pyramid13 => exact poly_congr (terms20x3_value n hn) (by same3)
  case prisma15 => exact poly_congr (terms20x3_value n hn) (by same3)
  case hexa20 => exact poly_congr (terms20x3_value n hn) (by same3)

theorem degraded_value {c : Code} {gps : Nat} (h : isExplicit c gps = false) {D : Deg}
    (hD : ∀ k < (nOrder c).length, Poly (each (edim c)) D fun p => valueIn (degradedTerms c) k p) (n : Nat) :
    Poly (each (edim c)) D fun p => valueIn (setAt c gps) n p := by
  have hsum : Poly (each (edim c)) D fun p => ∑ k ∈ Finset.range (nOrder c).length, if (nOrder c).getD k 0 = n then valueIn (degradedTerms c) k p else 0 := by
    refine Poly.sum _ _ fun k hk => ?_
    by_cases hn : (nOrder c).getD k 0 = n
    · simp only [hn, if_true]; exact hD k (Finset.mem_range.1 hk)
    · simp only [hn, if_false]; exact (Poly.const 0).mono ⟨Nat.zero_le _, Nat.zero_le _, Nat.zero_le _⟩
  refine poly_congr hsum fun p hp => ?_
  obtain ⟨terms, ht, hl, hr⟩ := (degradedTerms_basis c).defined p hp
  obtain ⟨tab, e1, _, _, e2, _⟩ := degrade_eq (nodes := nodes c) (dim := edim c) (order := nOrder c) hl.symm (nOrder_lt c) hr
  change valueIn (setAt c gps) n p = _
  rw [setAt_degraded h]
  simp only [valueIn, ht, Option.bind_some, e1, Option.elim_some]
  rw [e2 n, hl]

theorem degraded_values {c : Code} {gps : Nat} (he : isExplicit c gps = false) (hd : edim c = 2 ∨ edim c = 3) {order : Nat} {rule : List (ℝ × ℝ)}
    (hr : gauss Real.sqrt order = some rule) (ho : kernelOrder c ≤ order) (u : Nat → ℝ)
    (hz : ∀ p ∈ tensor rule (edim c), ∀ tab, setAt c gps p.1 = some tab → ∑ n ∈ Finset.range (nodes c), valueOf tab n * u n = 0) :
    ∀ n < nodes c, u n = 0 := by
  have hd' : 2 ≤ edim c := by omega
  have hb := C75_basis c gps
  have hP : Poly (each (edim c)) (kernelOrder c - 1, kernelOrder c - 1, kernelOrder c - 1) fun p => interpolated (setAt c gps) (nodes c) u p := by
    refine Poly.sum _ _ fun n _ => ?_
    have := (degraded_value he (fun k hk => terms_value c hd' k hk) n).mul (Poly.const (u n))
    simpa only [add_zero] using this
  have hzero : ∀ p : List ℝ, p.length = edim c → interpolated (setAt c gps) (nodes c) u p = 0 := by
    intro p hp
    refine grid_zero hd hP le_rfl (gauss_nodup hr) ?_ (fun q hq => ?_) p hp
    · rw [gauss_length hr]
      have : 0 < kernelOrder c := by cases c <;> decide
      omega
    · have hlen : q.1.length = edim c := by
        rcases hd with hd | hd <;> rw [hd] at hq ⊢ <;> simp only [tensor, List.mem_map, List.mem_flatMap] at hq
        · obtain ⟨r, -, s, -, rfl⟩ := hq; rfl
        · obtain ⟨r, -, s, -, t, -, rfl⟩ := hq; rfl
      obtain ⟨tab, ht, -⟩ := hb.defined q.1 hlen
      have := hz q hq tab ht
      simpa only [interpolated, valueIn, ht, Option.elim_some] using this
  intro n hn
  obtain ⟨k, hk, e⟩ := nOrder_surj c n hn
  have := hzero ((cornersOf c).getD k []) (cornersOf_length c hd' k hk)
  rwa [interpolated_corner he hd' u k hk, e] at this

/-- All rules but the nine points of the prism with 15 nodes. -/
theorem values_kernel {c : Code} {gps : Nat} (hd : edim c = 2 ∨ edim c = 3) (hs : SeesAll c gps) (h15 : ¬ (c = .prisma15 ∧ gps = 9))
    {pts : List (List ℝ × ℝ)} (hp : rulePoints Real.sqrt c gps = some pts) (u : Nat → ℝ)
    (hz : ∀ p ∈ pts, ∀ tab, setAt c gps p.1 = some tab → ∑ n ∈ Finset.range (nodes c), valueOf tab n * u n = 0) : ∀ n < nodes c, u n = 0 := by
  have two : ∀ {p : List ℝ × ℝ}, p ∈ pts → edim c = 2 → p.1 = [p.1.getD 0 0, p.1.getD 1 0] := by
    intro p hpp e
    obtain ⟨r, s, e⟩ := List.length_eq_two.1 ((rule_length hp p hpp).trans e)
    rw [e]; rfl
  have three : ∀ {p : List ℝ × ℝ}, p ∈ pts → edim c = 3 → p.1 = [p.1.getD 0 0, p.1.getD 1 0, p.1.getD 2 0] := by
    intro p hpp e
    obtain ⟨r, s, t, e⟩ := List.length_eq_three.1 ((rule_length hp p hpp).trans e)
    rw [e]; rfl
  unfold rulePoints at hp
  split at hp
  · obtain rfl := Option.some.inj hp
    exact triangle3_values u fun p hpp => hz p hpp _ (by conv_lhs => rw [two hpp rfl]
                                                         rfl)
  · obtain rfl := Option.some.inj hp
    exact triangle6_values u fun p hpp => hz p hpp _ (by conv_lhs => rw [two hpp rfl]
                                                         rfl)
  · obtain rfl := Option.some.inj hp
    exact tetra4_values u fun p hpp => hz p hpp _ (by conv_lhs => rw [three hpp rfl]
                                                      rfl)
  · obtain rfl := Option.some.inj hp
    exact tetra10_values u fun p hpp => hz p hpp _ (by conv_lhs => rw [three hpp rfl]
                                                       rfl)
  · obtain rfl := Option.some.inj hp
    exact pyramid13_values u fun p hpp => hz p hpp _ (by conv_lhs => rw [three hpp rfl]
                                                         rfl)
  · obtain rfl := Option.some.inj hp
    exact prisma6_values u fun p hpp => hz p hpp _ (by conv_lhs => rw [three hpp rfl]
                                                       rfl)
  · exact absurd ⟨rfl, rfl⟩ h15
  · rename_i g1 g2 g3 g4 g5 g6 g7
    have he : isExplicit c gps = false := by
      unfold isExplicit
      split <;> simp_all
    simp only [Option.bind_eq_bind, Option.bind_eq_some_iff, Option.pure_def, Option.some.injEq] at hp
    obtain ⟨order, ho, rule, hr, rfl⟩ := hp
    refine degraded_values he hd hr ?_ u hz
    rcases hs with hs | hs
    · rw [he] at hs; exact absurd hs (by decide)
    · exact hs order ho

end Verif.Fem
