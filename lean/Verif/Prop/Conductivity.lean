import Verif.Proof.Conductivity
import Verif.Prop.Integration
import Verif.Prop.ElementVolume
import Mathlib.Tactic.Positivity
import Mathlib.Algebra.Order.BigOperators.Group.Finset
import Mathlib.Algebra.Order.BigOperators.Group.List
/-!
C79: the element matrix of the heat conduction.
-/
namespace Verif.Fem

section
variable {K : Type} [Field K] [DecidableEq K]

theorem thicknessAt_eq (N : Nat) (tab : List (K × List K)) (t : Nat → K) : thicknessAt N tab t = ∑ n ∈ Finset.range N, valueOf tab n * t n := by
  have := foldl_sum (S := K) (fun s n => s + valueOf tab n * t n) id (fun n => valueOf tab n * t n) (fun s n => rfl) N 0
  simpa [thicknessAt] using this

/-- The loop over the integration points: it stops exactly if the geometry is singular in a point, and every entry is the sum of the contributions. -/
theorem conductionLoop {c : Code} {gps : Nat} (hd : edim c = 2 ∨ edim c = 3) (m : Material K) (thickness : Nat → K) (coords : Nat → Nat → K) (pts : List (List K × K))
    (A : List K) (cond : Nat → K) (hA : A.length = nodes c * nodes c) :
    let r := pts.foldlM (fun (x : List K × (Nat → K)) p => do
      let tab ← setAt c gps p.1
      let g ← integrate (edim c) (nodes c) (slopeOf tab) coords
      let cond := conductivity (edim c) m.rotated m.model (m.ecf p.1) (m.cossin p.1) x.2
      let A ← matrixConductivity (edim c) m.matrixModel (nodes c) (thicknessAt (nodes c) tab thickness) g.det p.2 cond g.dND x.1
      pure (A, cond)) (A, cond)
    (r.isSome ↔ ∀ p ∈ pts, ∃ tab g, setAt c gps p.1 = some tab ∧ integrate (edim c) (nodes c) (slopeOf tab) coords = some g) ∧
    ∀ B, r = some B → B.1.length = nodes c * nodes c ∧ ∀ a < nodes c, ∀ b < nodes c,
      entry B.1 (a * nodes c + b) = entry A (a * nodes c + b) + (pts.map fun p => thickAt c gps thickness p.1 * (geometryAt c gps coords p.1).det * p.2 *
        ∑ i : Fin (edim c), ∑ j : Fin (edim c),
          (geometryAt c gps coords p.1).dND a i * m.tensor (edim c) p.1 i j * (geometryAt c gps coords p.1).dND b j).sum := by
  induction pts generalizing A cond with
  | nil => simp [hA]
  | cons p pts ih =>
    dsimp only
    rw [List.foldlM_cons]
    cases ht : setAt c gps p.1 with
    | none => simp [ht]
    | some tab =>
      cases hg : integrate (edim c) (nodes c) (slopeOf tab) coords with
      | none => simp [ht, hg]
      | some g =>
        obtain ⟨B, h1, h2, h3⟩ := matrixConductivity_spec hd m.matrixModel (nodes c) (thicknessAt (nodes c) tab thickness) g.det p.2
          (conductivity (edim c) m.rotated m.model (m.ecf p.1) (m.cossin p.1) cond) g.dND hA
        obtain ⟨i1, i2⟩ := ih B (conductivity (edim c) m.rotated m.model (m.ecf p.1) (m.cossin p.1) cond) h2
        simp only [ht, hg, Option.bind_eq_bind, Option.bind_some, h1, Option.pure_def] at i1 i2 ⊢
        refine ⟨?_, fun C hC => ?_⟩
        · rw [i1]
          simp [ht, hg]
        · obtain ⟨j1, j2⟩ := i2 C hC
          refine ⟨j1, fun a ha b hb => ?_⟩
          rw [j2 a ha b hb, h3 a ha b hb, conductivity_spec hd, List.map_cons, List.sum_cons, add_assoc]
          have e1 : tabAt c gps p.1 = tab := by simp [tabAt, ht]
          have e2 : geometryAt c gps coords p.1 = g := by simp [geometryAt, e1, hg]
          rw [e2, thickAt, e1, thicknessAt_eq]

theorem elementConductivity_eq {sqrt : K → K} {c : Code} {gps : Nat} (hd : edim c = 2 ∨ edim c = 3) {m : Material K} {thickness old : Nat → K}
    {coords : Nat → Nat → K} {A : List K} (h : elementConductivity sqrt c gps m thickness old coords = some A) :
    ∃ pts, rulePoints sqrt c gps = some pts ∧ A.length = nodes c * nodes c ∧
      (∀ p ∈ pts, ∃ tab g, setAt c gps p.1 = some tab ∧ integrate (edim c) (nodes c) (slopeOf tab) coords = some g) ∧
      ∀ a < nodes c, ∀ b < nodes c, entry A (a * nodes c + b) =
        (pts.map fun p => thickAt c gps thickness p.1 * (geometryAt c gps coords p.1).det * p.2 *
          ∑ i : Fin (edim c), ∑ j : Fin (edim c),
            (geometryAt c gps coords p.1).dND a i * m.tensor (edim c) p.1 i j * (geometryAt c gps coords p.1).dND b j).sum := by
  unfold elementConductivity at h
  simp only [Option.bind_eq_bind, Option.bind_eq_some_iff, Option.pure_def, Option.some.injEq] at h
  obtain ⟨pts, hp, B, hB, rfl⟩ := h
  obtain ⟨h1, h2⟩ := conductionLoop hd m thickness coords pts (List.replicate (nodes c * nodes c) 0) old (by simp)
  simp only [Option.bind_eq_bind, Option.pure_def] at h1 h2
  obtain ⟨h3, h4⟩ := h2 B hB
  refine ⟨pts, hp, h3, h1.1 (by rw [hB]; rfl), fun a ha b hb => ?_⟩
  rw [h4 a ha b hb, entry_replicate, zero_add]

theorem sum_list_comm {ι : Type} (l : List ι) (s : Finset Nat) (f : Nat → ι → K) : ∑ a ∈ s, (l.map (f a)).sum = (l.map fun x => ∑ a ∈ s, f a x).sum := by
  induction l with
  | nil => simp
  | cons x l ih => simp only [List.map_cons, List.sum_cons, Finset.sum_add_distrib, ih]

theorem mul_list_sum {ι : Type} (l : List ι) (a : K) (f : ι → K) : a * (l.map f).sum = (l.map fun x => a * f x).sum := by
  induction l with
  | nil => simp
  | cons x l ih => simp only [List.map_cons, List.sum_cons, mul_add, ih]

/-- The matrix of an element is the quadrature of `∫ t ∇S · C ∇T`, with the tensor of the turned material: for all elements, models and points, whatever
was left in the variables. -/
theorem C79_form {sqrt : K → K} {c : Code} {gps : Nat} (hd : edim c = 2 ∨ edim c = 3) {m : Material K} {thickness old : Nat → K} {coords : Nat → Nat → K}
    {A : List K} (h : elementConductivity sqrt c gps m thickness old coords = some A) :
    ∃ pts, rulePoints sqrt c gps = some pts ∧ ∀ S T : Nat → K,
      ∑ a ∈ Finset.range (nodes c), ∑ b ∈ Finset.range (nodes c), S a * entry A (a * nodes c + b) * T b = conductionForm c gps m thickness coords pts S T := by
  obtain ⟨pts, hp, -, -, h⟩ := elementConductivity_eq hd h
  refine ⟨pts, hp, fun S T => ?_⟩
  have e : ∀ a ∈ Finset.range (nodes c), ∑ b ∈ Finset.range (nodes c), S a * entry A (a * nodes c + b) * T b =
      (pts.map fun p => ∑ b ∈ Finset.range (nodes c), S a * (thickAt c gps thickness p.1 * (geometryAt c gps coords p.1).det * p.2 *
        ∑ i : Fin (edim c), ∑ j : Fin (edim c),
          (geometryAt c gps coords p.1).dND a i * m.tensor (edim c) p.1 i j * (geometryAt c gps coords p.1).dND b j) * T b).sum := by
    intro a ha
    rw [← sum_list_comm]
    refine Finset.sum_congr rfl fun b hb => ?_
    rw [h a (Finset.mem_range.1 ha) b (Finset.mem_range.1 hb), mul_comm (S a), mul_assoc, mul_comm, mul_list_sum]
    congr 1
    refine List.map_congr_left fun p _ => ?_
    ring
  rw [Finset.sum_congr rfl e, sum_list_comm, conductionForm]
  congr 1
  refine List.map_congr_left fun p _ => ?_
  simp only [gradientAt, Finset.sum_mul, Finset.mul_sum]
  rw [Finset.sum_comm]
  simp only [Finset.sum_comm (s := Finset.range (nodes c)) (t := Finset.univ)]
  refine Finset.sum_congr rfl fun i _ => Finset.sum_congr rfl fun j _ => Finset.sum_congr rfl fun b _ => Finset.sum_congr rfl fun a _ => ?_
  ring

end

end Verif.Fem
