import Verif.Proof.QuadratureTables
import Mathlib.Algebra.BigOperators.Fin
/-!
C77: the integration rules of the elements integrate the polynomials they are made for.
-/
namespace Verif.Fem

/-- The domain of the rule of an element: the explicit rules use triangles, tetrahedra and prisms, the others lines, squares and cubes. -/
def domain (c : Code) (gps : Nat) : Shape :=
  match c, gps with
  | .triangle3, 6 | .triangle6, 6 => .triangle
  | .tetra4, 4 | .tetra10, 15 => .tetra
  | .prisma6, 9 | .prisma15, 9 => .prism
  | c, _ => box (edim c)

/-- The exponents of the monomials the rule integrates. -/
def admits (c : Code) (gps : Nat) (e : Nat → Nat) : Prop :=
  match c, gps with
  | .triangle3, 6 | .triangle6, 6 => e 0 + e 1 ≤ 4
  | .tetra4, 4 => e 0 + e 1 + e 2 ≤ 2
  | .tetra10, 15 | .pyramid13, 14 => e 0 + e 1 + e 2 ≤ 5
  | .prisma6, 9 | .prisma15, 9 => e 0 + e 1 ≤ 2 ∧ e 2 ≤ 5
  | c, gps => ∀ order, getOrder (edim c) gps = some order → ∀ k < edim c, e k < 2 * order

/-- The deviation for a monomial: zero for the rules with exact points, the rounding of the decimals for the others. -/
noncomputable def tolerance (c : Code) (gps : Nat) : ℝ :=
  match c, gps with
  | .triangle3, 6 | .triangle6, 6 | .tetra4, 4 | .tetra10, 15 | .pyramid13, 14 => 1 / 10 ^ 14
  | .prisma6, 9 | .prisma15, 9 => 0
  | c, gps => if ∃ order, getOrder (edim c) gps = some order ∧ order ≤ 5 then 0 else 1 / 10 ^ 13

theorem rule_moment (c : Code) (gps : Nat) (pts : List (List ℝ × ℝ)) (h : rulePoints Real.sqrt c gps = some pts) (e : Nat → Nat) (he : admits c gps e) :
    |monSum (edim c) pts e - moment (domain c gps) e| ≤ tolerance c gps := by
  unfold rulePoints at h
  split at h
  · obtain rfl := Option.some.inj h; exact triangle_moment _ (.inl rfl) e he
  · obtain rfl := Option.some.inj h; exact triangle_moment _ (.inr rfl) e he
  · obtain rfl := Option.some.inj h; exact tetra4_moment e he
  · obtain rfl := Option.some.inj h; exact tetra10_moment e he
  · obtain rfl := Option.some.inj h; exact pyramid13_moment e he
  · obtain rfl := Option.some.inj h
    change |monSum 3 _ e - moment .prism e| ≤ 0
    rw [prisma_moment e he.1 he.2, sub_self, abs_zero]
  · obtain rfl := Option.some.inj h
    change |monSum 3 (rulePrisma6 Real.sqrt) e - moment .prism e| ≤ 0
    rw [prisma_moment e he.1 he.2, sub_self, abs_zero]
  · rename_i h1 h2 h3 h4 h5 h6 h7
    simp only [Option.bind_eq_bind, Option.bind_eq_some_iff, Option.pure_def, Option.some.injEq] at h
    obtain ⟨order, ho, rule, hr, rfl⟩ := h
    have hd : edim c = 1 ∨ edim c = 2 ∨ edim c = 3 := by cases c <;> decide
    have hD : domain c gps = box (edim c) := by
      unfold domain; split <;> simp_all
    have hA : ∀ k < edim c, e k < 2 * order := by
      unfold admits at he; split at he <;> simp_all
    have hT : tolerance c gps = if ∃ order, getOrder (edim c) gps = some order ∧ order ≤ 5 then 0 else 1 / 10 ^ 13 := by
      unfold tolerance; split <;> simp_all
    rw [hD, hT]
    refine (tensor_moment order rule hr (edim c) hd e hA).trans ?_
    split
    · rename_i hx
      obtain ⟨o, h, hle⟩ := hx
      rw [ho] at h
      rw [← Option.some.inj h] at hle
      rw [gaussTol, if_pos hle, mul_zero]
    · have := gaussTol_le order
      norm_num at *
      linarith

/-- The exponents of a monomial. -/
def expOf {d : Nat} (m : Fin d →₀ ℕ) (k : Nat) : Nat := if h : k < d then m ⟨k, h⟩ else 0

theorem polyAt_eq {d : Nat} (P : MvPolynomial (Fin d) ℝ) (p : List ℝ) :
    polyAt P p = ∑ m ∈ P.support, P.coeff m * ∏ k ∈ Finset.range d, p.getD k 0 ^ expOf m k := by
  rw [polyAt, MvPolynomial.eval_eq']
  refine Finset.sum_congr rfl fun m _ => ?_
  rw [← Fin.prod_univ_eq_prod_range fun k => p.getD k 0 ^ expOf m k]
  congr 1
  refine Finset.prod_congr rfl fun i _ => ?_
  rw [expOf, dif_pos i.isLt]

theorem ruleSum_poly (d : Nat) (pts : List (List ℝ × ℝ)) {ι : Type} (S : Finset ι) (c : ι → ℝ) (e : ι → Nat → Nat) :
    ruleSum pts (fun p => ∑ i ∈ S, c i * ∏ k ∈ Finset.range d, p.getD k 0 ^ e i k) = ∑ i ∈ S, c i * monSum d pts (e i) := by
  induction pts with
  | nil => simp [ruleSum, monSum]
  | cons p pts ih =>
    unfold ruleSum monSum at *
    simp only [List.map_cons, List.sum_cons]
    rw [ih, Finset.mul_sum, ← Finset.sum_add_distrib]
    exact Finset.sum_congr rfl fun i _ => by ring

theorem domain_dim (c : Code) (gps : Nat) : (domain c gps).dim = edim c := by
  unfold domain
  split
  any_goals rfl
  rename_i h1 h2 h3 h4 h5 h6
  cases c <;> rfl

/-- The rules of all elements: the integral of a polynomial of the admitted degrees is exact, up to the rounding of the decimal tables. -/
theorem C77_exact (c : Code) (gps : Nat) (pts : List (List ℝ × ℝ)) (h : rulePoints Real.sqrt c gps = some pts) (P : MvPolynomial (Fin (edim c)) ℝ)
    (hP : ∀ m ∈ P.support, admits c gps (expOf m)) :
    |ruleSum pts (polyAt P) - (domain c gps).integral (polyAt P)| ≤ tolerance c gps * ∑ m ∈ P.support, |P.coeff m| := by
  have e : polyAt P = fun p => ∑ m ∈ P.support, P.coeff m * ∏ k ∈ Finset.range (edim c), p.getD k 0 ^ expOf m k := funext (polyAt_eq P)
  have h2 := integral_poly (domain c gps) P.support (fun m => P.coeff m) expOf
  rw [domain_dim] at h2
  rw [e, ruleSum_poly, h2, ← Finset.sum_sub_distrib, Finset.mul_sum]
  refine (Finset.abs_sum_le_sum_abs _ _).trans (Finset.sum_le_sum fun m hm => ?_)
  rw [← mul_sub, abs_mul, mul_comm]
  exact mul_le_mul_of_nonneg_right (rule_moment c gps pts h _ (hP m hm)) (abs_nonneg _)

theorem gauss_length {order : Nat} {rule : List (ℝ × ℝ)} (h : gauss Real.sqrt order = some rule) : rule.length = order := by
  unfold gauss at h
  split at h
  all_goals first
    | (obtain rfl := Option.some.inj h; rfl)
    | simp at h

theorem order_pow {d gps order : Nat} (hd : d = 1 ∨ d = 2 ∨ d = 3) (h : getOrder d gps = some order) : gps = order ^ d := by
  unfold getOrder at h
  split at h
  all_goals first
    | (obtain rfl := Option.some.inj h; first | norm_num | simp)
    | simp at h

/-- The rule has as many points as the element is declared for. -/
theorem C77_count (c : Code) (gps : Nat) (pts : List (List ℝ × ℝ)) (h : rulePoints Real.sqrt c gps = some pts) : pts.length = gps := by
  unfold rulePoints at h
  split at h
  any_goals (obtain rfl := Option.some.inj h; rfl)
  simp only [Option.bind_eq_bind, Option.bind_eq_some_iff, Option.pure_def, Option.some.injEq] at h
  obtain ⟨order, ho, rule, hr, rfl⟩ := h
  have hd : edim c = 1 ∨ edim c = 2 ∨ edim c = 3 := by cases c <;> decide
  have hl := gauss_length hr
  rw [order_pow hd ho]
  rcases hd with hd | hd | hd <;> rw [hd] <;> simp [tensor, List.length_flatMap, hl] <;> ring

/-- The volumes of the domains. -/
noncomputable def referenceVolume (c : Code) (gps : Nat) : ℝ :=
  match domain c gps with
  | .line => 2
  | .square => 4
  | .cube => 8
  | .triangle => 1 / 2
  | .tetra => 1 / 6
  | .prism => 1

/-- The weights sum to the volume of the reference element. -/
theorem C77_weights (c : Code) (gps : Nat) (pts : List (List ℝ × ℝ)) (h : rulePoints Real.sqrt c gps = some pts) :
    |(pts.map (·.2)).sum - referenceVolume c gps| ≤ tolerance c gps := by
  have := rule_moment c gps pts h (fun _ => 0) (by
    unfold admits
    split
    any_goals simp
    rename_i h1 h2 h3 h4 h5 h6 h7
    intro order ho k hk
    unfold rulePoints at h
    split at h <;> try simp_all
    simp only [ho, Option.bind_some, Option.bind_eq_some_iff] at h
    cases order with
    | zero => simp [gauss] at h
    | succ n => omega)
  have e1 : monSum (edim c) pts (fun _ => 0) = (pts.map (·.2)).sum := by simp [monSum]
  have e2 : moment (domain c gps) (fun _ => 0) = referenceVolume c gps := by
    unfold referenceVolume
    cases domain c gps <;> norm_num [moment, m1, Nat.factorial]
  rwa [e1, e2] at this

end Verif.Fem
