import Verif.Proof.Dirichlet
import Verif.Spec.Coarse
/-! C64: the dual operator, its right-hand side and the primal solution; C65: the preconditioners lumped and Dirichlet; on vectors distributed over processes. -/
namespace Verif.Feti

open Verif.Csx Verif.Dual Verif.Comm Verif.Mpi Finset

variable {L R : Type} [DecidableEq L] [CommRing R]
variable {np : Nat} {first : Nat → Nat} {nb : Nat → List Nat} {lam : Nat → List L} {doms : L → List Nat} {dim : Nat → Nat} {entry : L → Nat → Nat → R} {G : Nat → Glue R}

theorem vectorOf_length (u : Nat → Nat → R) (d : Nat) : (vectorOf dim u d).length = dim d := by unfold vectorOf; simp

theorem sized_local {p : Nat} {v : Nat → List R} (h : ∀ d, (v d).length = dim d) : Sized first dim p (localVectors first p v) := by
  unfold localVectors
  refine ⟨mk_length _ _, fun j hj => ?_⟩
  rw [mk_getD _ _ hj]
  exact h _

theorem zip_mk {n : Nat} {a b : List (List R)} (ha : a.length = n) (hb : b.length = n) : List.zip a b = mk n fun j => (a.getD j [], b.getD j []) := by
  conv_lhs => rw [vectors_mk n a ha, vectors_mk n b hb]
  unfold mk
  rw [List.zip_map']

theorem map_mk {A B : Type} (n : Nat) (f : Nat → A) (g : A → B) : (mk n f).map g = mk n fun j => g (f j) := by
  unfold mk
  rw [List.map_map]
  rfl

/-- C64: on all processes `apply` succeeds and, for every schedule of the messages, gives `B K⁺ Bᵀ X`, where `solve d` is the solver of the domain `d`; the buffers keep their sizes. -/
theorem C64_apply (H : Shared np first nb lam doms) (h0 : first 0 = 0) (hG : Glued np first lam doms dim entry G) (cmap : Nat → List Nat)
    (hc : ∀ p, p < np → Describes (cmap p) (lam p) doms) :
    ∃ nmap nsize : Nat → List Nat, (∀ p, p < np → dualMapSet (decOf first nb p) (cmap p) = some (nmap p, nsize p)) ∧
      ∀ (solve : Nat → List R → List R), (∀ d v, v.length = dim d → (solve d v).length = dim d) →
      ∀ (X : L → R) (y : Nat → List R) (btx kbtx : Nat → List (List R)), (∀ p, p < np → (y p).length = (lam p).length ∧ Sized first dim p (btx p) ∧ Sized first dim p (kbtx p)) →
        ∃ (y' : Nat → List R) (btx' kbtx' : Nat → List (List R)),
          (∀ p, p < np → implicitApply (G p) (fun j => solve (first p + j)) ((lam p).map X) (y p) (btx p) (kbtx p) = some (y' p, btx' p, kbtx' p)) ∧
          (∀ p, p < np → Sized first dim p (btx' p) ∧ Sized first dim p (kbtx' p)) ∧
          SyncTo np nb nmap nsize y' fun p => (lam p).map (timesBABt (first np) dim (allMults np lam) entry solve X) := by
  obtain ⟨nmap, nsize, h1, h2⟩ := sync_parts H h0 hG cmap hc
  refine ⟨nmap, nsize, h1, ?_⟩
  intro solve hsolve X y btx kbtx hs
  refine ⟨_, fun p => localVectors first p (vectorOf dim (timesBt (allMults np lam) entry X)),
    fun p => localVectors first p fun d => solve d (vectorOf dim (timesBt (allMults np lam) entry X) d), ?_, ?_, h2 fun d => solve d (vectorOf dim (timesBt (allMults np lam) entry X) d)⟩
  · intro p hp
    obtain ⟨hy, hb, hk⟩ := hs p hp
    unfold implicitApply
    simp only [Option.bind_eq_bind]
    rw [applyBtAll_global H hG hp X _ hb, Option.bind_some, hG.len p hp, applyK_global p solve _ _ hk.1, Option.bind_some,
      applyB_part hG hp _ (fun d _ => hsolve d _ (vectorOf_length _ d)) _ hy]
    rfl
  · intro p _
    exact ⟨sized_local (vectorOf_length _), sized_local fun d => hsolve d _ (vectorOf_length _ d)⟩

/-- C64, right-hand side: `update` computes `B K⁺ f - c`. -/
theorem C64_rhs (H : Shared np first nb lam doms) (h0 : first 0 = 0) (hG : Glued np first lam doms dim entry G) (cmap : Nat → List Nat)
    (hc : ∀ p, p < np → Describes (cmap p) (lam p) doms) :
    ∃ nmap nsize : Nat → List Nat, (∀ p, p < np → dualMapSet (decOf first nb p) (cmap p) = some (nmap p, nsize p)) ∧
      ∀ (solve : Nat → List R → List R), (∀ d v, v.length = dim d → (solve d v).length = dim d) →
      ∀ (f : Nat → Nat → R) (c : L → R) (y : Nat → List R) (kbtx : Nat → List (List R)), (∀ p, p < np → (y p).length = (lam p).length ∧ Sized first dim p (kbtx p)) →
        ∃ (y' z : Nat → List R) (kbtx' : Nat → List (List R)),
          (∀ p, p < np → implicitRhs (G p) (fun j => solve (first p + j)) (localVectors first p (vectorOf dim f)) (y p) (kbtx p) = some (y' p, kbtx' p)) ∧
          (∀ p, p < np → Sized first dim p (kbtx' p)) ∧
          SyncTo np nb nmap nsize y' z ∧
          ∀ p, p < np → addScaled (z p) (-1) ((lam p).map c) = some ((lam p).map fun l => timesB (first np) dim entry (valuesOf fun d => solve d (vectorOf dim f d)) l - c l) := by
  obtain ⟨nmap, nsize, h1, h2⟩ := sync_parts H h0 hG cmap hc
  refine ⟨nmap, nsize, h1, ?_⟩
  intro solve hsolve f c y kbtx hs
  refine ⟨_, _, fun p => localVectors first p fun d => solve d (vectorOf dim f d), ?_, fun p _ => sized_local fun d => hsolve d _ (vectorOf_length _ d), h2 fun d => solve d (vectorOf dim f d), ?_⟩
  · intro p hp
    obtain ⟨hy, hk⟩ := hs p hp
    unfold implicitRhs
    simp only [Option.bind_eq_bind]
    rw [hG.len p hp, applyK_global p solve _ _ hk.1, Option.bind_some, applyB_part hG hp _ (fun d _ => hsolve d _ (vectorOf_length _ d)) _ hy]
    rfl
  · intro p hp
    cases hl : lam p with
    | nil => rfl
    | cons l0 ls =>
        rw [← hl, mk_map_list (lam p) _ l0, mk_map_list (lam p) c l0, addScaled_spec, mk_map_list (lam p) _ l0]
        congr 1
        apply mk_congr
        intro k _
        ring

/-- C64, primal solution: `toPrimal` computes `K⁺ (f - Bᵀ X)` for each domain. -/
theorem C64_primal (H : Shared np first nb lam doms) (hG : Glued np first lam doms dim entry G) (solve : Nat → List R → List R)
    {p : Nat} (hp : p < np) (X : L → R) (f : Nat → Nat → R) (btx kbtx y : List (List R)) (hb : Sized first dim p btx) (hk : Sized first dim p kbtx) (hy : Sized first dim p y) :
    toPrimal (G p) (fun j => solve (first p + j)) ((lam p).map X) (localVectors first p (vectorOf dim f)) btx kbtx y =
      some (localVectors first p (fun d => solve d (vectorOf dim (fun d i => f d i - timesBt (allMults np lam) entry X d i) d)),
        localVectors first p (vectorOf dim (timesBt (allMults np lam) entry X)), localVectors first p (vectorOf dim fun d i => f d i - timesBt (allMults np lam) entry X d i)) := by
  unfold toPrimal
  simp only [Option.bind_eq_bind]
  rw [hG.len p hp, zip_mk hb.1 hk.1, forDomains_spec _ _ (fun j => (vectorOf dim (timesBt (allMults np lam) entry X) (first p + j),
    vectorOf dim (fun d i => f d i - timesBt (allMults np lam) entry X d i) (first p + j))) _ ?_, Option.bind_some, map_mk, map_mk]
  · have := applyK_global p solve (vectorOf dim fun d i => f d i - timesBt (allMults np lam) entry X d i) y hy.1
    unfold localVectors at this ⊢
    rw [this]
    rfl
  · intro j hj
    have hjl : j < (G p).length := by rw [hG.len p hp]; exact hj
    rw [List.getElem?_eq_getElem hjl, Option.bind_some, applyBt_global H hG hp (List.getElem?_eq_getElem hjl) X _ (hb.2 j hj), Option.bind_some]
    unfold localVectors
    rw [mk_get _ hj, Option.bind_some]
    show (addScaled (mk (dim (first p + j)) (f (first p + j))) (-1) _).bind _ = _
    rw [addScaled_spec, Option.bind_some]
    congr 1
    ext1
    · exact mk_congr fun i _ => one_mul _
    · exact mk_congr fun i _ => by ring

/-- `⟨B u, Y⟩ = ⟨u, Bᵀ Y⟩`. -/
theorem timesB_adjoint (nd : Nat) (all : Finset L) (u : Nat → Nat → R) (Y : L → R) :
    ∑ l ∈ all, timesB nd dim entry u l * Y l = ∑ d ∈ range nd, ∑ i ∈ range (dim d), u d i * timesBt all entry Y d i := by
  unfold timesB timesBt
  simp only [Finset.sum_mul, Finset.mul_sum]
  rw [sum_comm]
  apply sum_congr rfl
  intro d _
  rw [sum_comm]
  apply sum_congr rfl
  intro i _
  apply sum_congr rfl
  intro l _
  ring

theorem vectorOf_getD (u : Nat → Nat → R) {d i : Nat} (h : i < dim d) : (vectorOf dim u d).getD i 0 = u d i := mk_getD _ _ h

/-- C64, symmetry: the operator is symmetric in the dual dot product if the solvers of the domains are. -/
theorem C64_symmetric (nd : Nat) (all : Finset L) (solve : Nat → List R → List R)
    (hsym : ∀ d v w, v.length = dim d → w.length = dim d → ∑ i ∈ range (dim d), (solve d v).getD i 0 * w.getD i 0 = ∑ i ∈ range (dim d), (solve d w).getD i 0 * v.getD i 0) (X Y : L → R) :
    ∑ l ∈ all, timesBABt nd dim all entry solve X l * Y l = ∑ l ∈ all, timesBABt nd dim all entry solve Y l * X l := by
  unfold timesBABt
  rw [timesB_adjoint, timesB_adjoint]
  apply sum_congr rfl
  intro d _
  have h := hsym d (vectorOf dim (timesBt all entry X) d) (vectorOf dim (timesBt all entry Y) d) (vectorOf_length _ _) (vectorOf_length _ _)
  unfold valuesOf
  refine Eq.trans ?_ (h.trans ?_)
  · exact sum_congr rfl fun i hi => by rw [vectorOf_getD _ (mem_range.1 hi)]
  · exact sum_congr rfl fun i hi => by rw [vectorOf_getD _ (mem_range.1 hi)]

/-! ### Preconditioners -/

/-- C65, lumped: on all processes `apply` succeeds and gives `B K Bᵀ X` for every schedule, where `apply d` is the product with the matrix of the domain `d`. -/
theorem C65_lumped (H : Shared np first nb lam doms) (h0 : first 0 = 0) (hG : Glued np first lam doms dim entry G) (cmap : Nat → List Nat)
    (hc : ∀ p, p < np → Describes (cmap p) (lam p) doms) :
    ∃ nmap nsize : Nat → List Nat, (∀ p, p < np → dualMapSet (decOf first nb p) (cmap p) = some (nmap p, nsize p)) ∧
      ∀ (apply : Nat → List R → List R), (∀ d v, v.length = dim d → (apply d v).length = dim d) →
      ∀ (X : L → R) (y : Nat → List R) (btx kbtx : Nat → List (List R)), (∀ p, p < np → (y p).length = (lam p).length ∧ Sized first dim p (btx p) ∧ Sized first dim p (kbtx p)) →
        ∃ (y' : Nat → List R) (btx' kbtx' : Nat → List (List R)),
          (∀ p, p < np → lumpedApply (G p) (fun j => apply (first p + j)) ((lam p).map X) (y p) (btx p) (kbtx p) = some (y' p, btx' p, kbtx' p)) ∧
          (∀ p, p < np → Sized first dim p (btx' p) ∧ Sized first dim p (kbtx' p)) ∧
          SyncTo np nb nmap nsize y' fun p => (lam p).map (timesBABt (first np) dim (allMults np lam) entry apply X) := by
  obtain ⟨nmap, nsize, h1, h2⟩ := sync_parts H h0 hG cmap hc
  refine ⟨nmap, nsize, h1, ?_⟩
  intro apply happly X y btx kbtx hs
  refine ⟨_, fun p => localVectors first p (vectorOf dim (timesBt (allMults np lam) entry X)),
    fun p => localVectors first p fun d => apply d (vectorOf dim (timesBt (allMults np lam) entry X) d), ?_, ?_, h2 fun d => apply d (vectorOf dim (timesBt (allMults np lam) entry X) d)⟩
  · intro p hp
    obtain ⟨hy, hb, hk⟩ := hs p hp
    unfold lumpedApply
    simp only [Option.bind_eq_bind]
    rw [hG.len p hp, zip_mk hb.1 hk.1, forDomains_spec _ _ (fun j => (vectorOf dim (timesBt (allMults np lam) entry X) (first p + j),
      apply (first p + j) (vectorOf dim (timesBt (allMults np lam) entry X) (first p + j)))) _ ?_, Option.bind_some, map_mk, map_mk]
    · have := applyB_part hG hp (fun d => apply d (vectorOf dim (timesBt (allMults np lam) entry X) d)) (fun d _ => happly d _ (vectorOf_length _ d)) _ hy
      unfold localVectors at this ⊢
      rw [this]
      rfl
    · intro j hj
      have hjl : j < (G p).length := by rw [hG.len p hp]; exact hj
      rw [List.getElem?_eq_getElem hjl, Option.bind_some, applyBt_global H hG hp (List.getElem?_eq_getElem hjl) X _ (hb.2 j hj), Option.bind_some]
      have : (mk (dim (first p + j)) fun i => 1 * timesBt (allMults np lam) entry X (first p + j) i) = vectorOf dim (timesBt (allMults np lam) entry X) (first p + j) :=
        mk_congr fun i _ => one_mul _
      rw [this]
  · intro p _
    exact ⟨sized_local (vectorOf_length _), sized_local fun d => happly d _ (vectorOf_length _ d)⟩

/-- The product with the matrices `sc d` on the unknowns `idx d` of the domains: `w` at the unknown `idx d a` is the row `a` times the values at the unknowns `idx d`. -/
def onBoundary (idx : Nat → List Nat) (sc : Nat → Nat → Nat → R) (u : Nat → Nat → R) (d i : Nat) : R :=
  if i ∈ idx d then ∑ b ∈ range (idx d).length, sc d ((idx d).idxOf i) b * u d ((idx d).getD b 0) else 0

/-- C65, Dirichlet: `update` finds the unknowns with constraints in increasing order, and with the matrices `sc` on them `apply` succeeds on all processes and gives `B S Bᵀ X` for every
schedule. -/
theorem C65_dirichlet (H : Shared np first nb lam doms) (h0 : first 0 = 0) (hG : Glued np first lam doms dim entry G) (cmap : Nat → List Nat)
    (hc : ∀ p, p < np → Describes (cmap p) (lam p) doms) :
    ∃ (nmap nsize : Nat → List Nat) (idx : Nat → List Nat), (∀ p, p < np → dualMapSet (decOf first nb p) (cmap p) = some (nmap p, nsize p)) ∧
      (∀ d, (idx d).Pairwise (· < ·)) ∧
      (∀ p, p < np → ∀ (j : Nat) (g : Csx R × List Nat), (G p)[j]? = some g → boundaryIndices g.1 = some (idx (first p + j)) ∧ (∀ i, i ∈ idx (first p + j) ↔ i ∈ g.1.idxs) ∧
        ∀ l ∈ lam p, ∀ i, entry l (first p + j) i ≠ 0 → i ∈ idx (first p + j)) ∧
      ∀ (sc : Nat → Nat → Nat → R) (X : L → R) (y : Nat → List R) (btx kbtx : Nat → List (List R)),
        (∀ p, p < np → (y p).length = (lam p).length ∧ Sized first dim p (btx p) ∧ Sized first dim p (kbtx p)) →
        ∃ (y' : Nat → List R) (btx' kbtx' : Nat → List (List R)),
          (∀ p, p < np → dirichletApply (G p) (mk (first (p + 1) - first p) fun j => idx (first p + j)) (fun j => sc (first p + j)) ((lam p).map X) (y p) (btx p) (kbtx p) =
            some (y' p, btx' p, kbtx' p)) ∧
          (∀ p, p < np → Sized first dim p (btx' p) ∧ Sized first dim p (kbtx' p)) ∧
          SyncTo np nb nmap nsize y' fun p => (lam p).map (timesB (first np) dim entry (onBoundary idx sc (timesBt (allMults np lam) entry X))) := by
  obtain ⟨nmap, nsize, h1, h2⟩ := sync_parts H h0 hG cmap hc
  -- the owner and the matrix of a domain
  have hex : ∀ d, ∃ B : List Nat, B.Pairwise (· < ·) ∧ ∀ p, p < np → ∀ (j : Nat) (g : Csx R × List Nat), first p + j = d → (G p)[j]? = some g → B = boundaryOf g.1 := by
    intro d
    by_cases h : ∃ p j g, p < np ∧ first p + j = d ∧ (G p)[j]? = some g
    · obtain ⟨p, j, g, hp, e, hg⟩ := h
      refine ⟨boundaryOf g.1, boundaryOf_sorted _, ?_⟩
      intro q hq k g' e' hg'
      have hj : j < first (p + 1) - first p := by rw [← hG.len p hp]; exact (List.getElem?_eq_some_iff.1 hg).1
      have hk : k < first (q + 1) - first q := by rw [← hG.len q hq]; exact (List.getElem?_eq_some_iff.1 hg').1
      have : p = q := owner_unique H.mono (d := d) (by rw [← e]; exact owns_local hj) (by rw [← e']; exact owns_local hk)
      subst this
      have : j = k := by omega
      subst this
      rw [hg] at hg'
      cases hg'
      rfl
    · exact ⟨[], List.Pairwise.nil, fun p hp j g e hg => absurd ⟨p, j, g, hp, e, hg⟩ h⟩
  choose idx hsorted hidx using hex
  have hzero : ∀ p, p < np → ∀ (j : Nat) (g : Csx R × List Nat), (G p)[j]? = some g → ∀ l ∈ lam p, ∀ i, i ∉ idx (first p + j) → entry l (first p + j) i = 0 := by
    intro p hp j g hg l hl i hi
    obtain ⟨k, hk, e⟩ := List.getElem_of_mem hl
    rw [← hG.entries p hp j g hg k l (by rw [List.getElem?_eq_getElem hk, e]) i]
    apply sum_eq_zero
    intro r _
    rw [hidx _ p hp j g rfl hg, mem_boundaryOf (hG.wf p hp j g hg)] at hi
    rw [at_zero hi, ite_self]
  refine ⟨nmap, nsize, idx, h1, hsorted, ?_, ?_⟩
  · intro p hp j g hg
    have e := hidx _ p hp j g rfl hg
    refine ⟨by rw [e]; exact boundaryIndices_spec (hG.wf p hp j g hg), fun i => by rw [e]; exact mem_boundaryOf (hG.wf p hp j g hg), ?_⟩
    intro l hl i hne
    by_contra h
    exact hne (hzero p hp j g hg l hl i h)
  · intro sc X y btx kbtx hs
    have hrange : ∀ p, p < np → ∀ j, j < first (p + 1) - first p → ∀ c ∈ idx (first p + j), c < dim (first p + j) := by
      intro p hp j hj c hcm
      have hjl : j < (G p).length := by rw [hG.len p hp]; exact hj
      rw [hidx _ p hp j _ rfl (List.getElem?_eq_getElem hjl), mem_boundaryOf (hG.wf p hp j _ (List.getElem?_eq_getElem hjl))] at hcm
      rw [← hG.cols p hp j _ (List.getElem?_eq_getElem hjl)]
      exact (hG.wf p hp j _ (List.getElem?_eq_getElem hjl)).range c hcm
    -- one domain
    have hone : ∀ p, p < np → ∀ j, j < first (p + 1) - first p → ∃ b k : Nat → R, ((G p)[j]?.bind fun g => (mk (first (p + 1) - first p) fun j => idx (first p + j))[j]?.bind fun ix =>
        (applyBt g.1 g.2 ((lam p).map X) ((btx p).getD j []) 1).bind fun b => (compress ix b).bind fun b => (denseApply ix.length (sc (first p + j)) b ((kbtx p).getD j [])).bind fun k =>
          (expand ix k).bind fun k => some (b, k)) = some (mk (dim (first p + j)) b, mk (dim (first p + j)) k) ∧
        ∀ i ∈ idx (first p + j), k i = onBoundary idx sc (timesBt (allMults np lam) entry X) (first p + j) i := by
      intro p hp j hj
      obtain ⟨hy, hb, hk⟩ := hs p hp
      have hjl : j < (G p).length := by rw [hG.len p hp]; exact hj
      have hr := hrange p hp j hj
      have hlen : (idx (first p + j)).length ≤ dim (first p + j) := by
        by_contra hlt
        have hl : dim (first p + j) < (idx (first p + j)).length := by omega
        have := sorted_ge (hsorted (first p + j)) hl
        have := hr _ (List.getElem_mem hl)
        omega
      have ek : (kbtx p).getD j [] = mk (dim (first p + j)) fun k => ((kbtx p).getD j []).getD k 0 := by rw [← hk.2 j hj]; exact mk_of_length _ 0
      rw [List.getElem?_eq_getElem hjl, Option.bind_some, mk_get _ hj, Option.bind_some, applyBt_global H hG hp (List.getElem?_eq_getElem hjl) X _ (hb.2 j hj), Option.bind_some,
        compress_spec (hsorted _) hr, Option.bind_some, ek, denseApply_spec hlen, Option.bind_some]
      obtain ⟨g, hg, hgv⟩ := expand_spec (hsorted (first p + j)) hr (fun i => if i < (idx (first p + j)).length then ∑ b ∈ range (idx (first p + j)).length, sc (first p + j) i b *
        (if b < (idx (first p + j)).length then 1 * timesBt (allMults np lam) entry X (first p + j) ((idx (first p + j)).getD b 0) else 1 * timesBt (allMults np lam) entry X (first p + j) b)
          else ((kbtx p).getD j []).getD i 0)
      refine ⟨_, g, by rw [hg]; rfl, ?_⟩
      intro i hi
      have hpos := List.idxOf_lt_length_of_mem hi
      rw [hgv ((idx (first p + j)).idxOf i) i (List.getElem?_idxOf hi), if_pos hpos]
      unfold onBoundary
      rw [if_pos hi]
      apply sum_congr rfl
      intro b hb'
      rw [if_pos (mem_range.1 hb'), one_mul]
    choose! bb kk hone1 hone2 using hone
    -- the vectors of all domains
    have hown : ∀ d, ∃ v : List R, v.length = dim d ∧ ∀ p, p < np → ∀ j, j < first (p + 1) - first p → first p + j = d → v = mk (dim d) (kk p j) := by
      intro d
      by_cases h : ∃ p j, p < np ∧ j < first (p + 1) - first p ∧ first p + j = d
      · obtain ⟨p, j, hp, hj, e⟩ := h
        refine ⟨mk (dim d) (kk p j), mk_length _ _, ?_⟩
        intro q hq k hk e'
        have : p = q := owner_unique H.mono (d := d) (by rw [← e]; exact owns_local hj) (by rw [← e']; exact owns_local hk)
        subst this
        have : j = k := by omega
        rw [this]
      · exact ⟨mk (dim d) fun _ => 0, mk_length _ _, fun p hp j hj e => absurd ⟨p, j, hp, hj, e⟩ h⟩
    choose v hvl hv using hown
    have hpart : ∀ p, p < np → (lam p).map (partB first dim entry p v) = (lam p).map (partB first dim entry p (vectorOf dim (onBoundary idx sc (timesBt (allMults np lam) entry X)))) := by
      intro p hp
      apply List.map_congr_left
      intro l hl
      unfold partB
      apply sum_congr rfl
      intro j hj
      have hj := mem_range.1 hj
      have hjl : j < (G p).length := by rw [hG.len p hp]; exact hj
      apply sum_congr rfl
      intro i hi
      have hi := mem_range.1 hi
      by_cases hm : i ∈ idx (first p + j)
      · rw [hv _ p hp j hj rfl, mk_getD _ _ hi, hone2 p hp j hj i hm, vectorOf_getD _ hi]
      · rw [hzero p hp j _ (List.getElem?_eq_getElem hjl) l hl i hm, zero_mul, zero_mul]
    refine ⟨fun p => (lam p).map (partB first dim entry p v), fun p => mk (first (p + 1) - first p) fun j => mk (dim (first p + j)) (bb p j), fun p => localVectors first p v, ?_, ?_, ?_⟩
    · intro p hp
      obtain ⟨hy, hb, hk⟩ := hs p hp
      unfold dirichletApply
      simp only [Option.bind_eq_bind]
      rw [hG.len p hp, zip_mk hb.1 hk.1, forDomains_spec _ _ (fun j => (mk (dim (first p + j)) (bb p j), mk (dim (first p + j)) (kk p j))) _ ?_, Option.bind_some, map_mk, map_mk]
      · have e : (mk (first (p + 1) - first p) fun j => mk (dim (first p + j)) (kk p j)) = localVectors first p v := mk_congr fun j hj => (hv _ p hp j hj rfl).symm
        dsimp only
        rw [e, applyB_part hG hp v (fun d _ => hvl d) _ hy]
        rfl
      · intro j hj
        exact hone1 p hp j hj
    · intro p _
      refine ⟨⟨mk_length _ _, fun j hj => ?_⟩, sized_local hvl⟩
      dsimp only
      rw [mk_getD _ _ hj, mk_length]
    · have h3 := h2 (vectorOf dim (onBoundary idx sc (timesBt (allMults np lam) entry X)))
      intro t send recv hbuf
      obtain ⟨packed, received, kl, k1, k2, k3⟩ := h3 t send recv hbuf
      refine ⟨packed, received, kl, fun p hp => by dsimp only; rw [hpart p hp]; exact k1 p hp, k2, ?_⟩
      intro p hp
      dsimp only
      rw [hpart p hp, k3 p hp]
      congr 1
      apply List.map_congr_left
      intro l _
      unfold timesB valuesOf
      apply sum_congr rfl
      intro d _
      apply sum_congr rfl
      intro i hi
      rw [vectorOf_getD _ (mem_range.1 hi)]

/-! ### The constraints of the decomposed problem -/

section
open Verif.Pattern
variable {K : Type} [Field K] {P : Problem} {srt : Nat → List (Nat × Nat) → List (Nat × Nat)}

omit [Field K] in
theorem rowsOf_positions (p d : Nat) (l : List Mult) : (rowsOf (lcopies P p) l d).map (·.2) = acting (l.map (globalize P p)) (Mult.doms P.copies) d := by
  induction l using List.reverseRecOn with
  | nil => rfl
  | append_singleton l a ih =>
      rw [rowsOf_push, List.map_append, ih]
      unfold acting positions
      rw [List.map_append, List.length_append, List.map_singleton, List.length_singleton, List.range_succ, List.filter_append]
      congr 1
      · apply List.filter_congr
        intro k hk
        rw [List.getElem?_append_left (List.mem_range.1 hk)]
      · unfold one
        have e : (l.map (globalize P p) ++ [globalize P p a])[(l.map (globalize P p)).length]? = some (globalize P p a) := by
          rw [List.getElem?_append_right (Nat.le_refl _), Nat.sub_self]; rfl
        by_cases h : d ∈ a.doms (lcopies P p)
        · rw [if_pos h, List.filter_cons_of_pos (by rw [e]; simpa [globalize_doms] using h), List.length_map]; rfl
        · rw [if_neg h, List.filter_cons_of_neg (by rw [e]; simpa [globalize_doms] using h)]; rfl

/-- C64, constraints: the multipliers, the matrices and the maps computed by `constraintsSet` (C60) satisfy the hypotheses of the theorems above. -/
theorem C64_constraints (hP : P.Ok) (h : SortContract P srt) (sq : K → K) :
    ∃ (lam : Nat → List Mult) (st : Nat → Lambdas K) (off : Nat → List Nat) (entry : Mult → Nat → Nat → K),
      (∀ p, p < P.np → constraintsSet sq (srt p) (dec P p) (dmapAt P p) (P.dirichlet p) = some (st p, off p)) ∧
      Shared P.np P.first P.nb lam (Mult.doms P.copies) ∧ P.first 0 = 0 ∧ (∀ p, p < P.np → Describes (st p).cmap (lam p) (Mult.doms P.copies)) ∧
      Glued P.np P.first lam (Mult.doms P.copies) P.dim entry (fun p => (domainsOf P p (st p) fun _ => []).map fun x => (x.1, x.2.1)) ∧
      ∀ p, p < P.np → ∀ (j : Nat) (b : Csx K × List Nat), ((domainsOf P p (st p) fun _ => []).map fun x => (x.1, x.2.1))[j]? = some b → b.2 = acting (lam p) (Mult.doms P.copies) (P.first p + j) := by
  choose! cmap halo h1 h2 h3 using fun p (hp : p < P.np) => set_global hP h sq hp
  refine ⟨multsOf P srt, _, _, entryOf P sq, h1, shared_multsOf hP h, hP.zero, h2, ?_, ?_⟩
  rotate_left
  · intro p hp j b hb
    have hj : j < P.first (p + 1) - P.first p := by
      have := (List.getElem?_eq_some_iff.1 hb).1
      rw [List.length_map] at this
      unfold domainsOf at this
      rw [List.length_map, List.length_range] at this
      exact this
    rw [List.getElem?_map, domainsOf_get _ _ hj] at hb
    cases hb
    unfold lamState
    dsimp only
    have hj' : j < (dec P p).dend - (dec P p).dbegin := hj
    rw [mk_getD _ _ hj']
    exact rowsOf_positions p _ _
  have hget : ∀ p, p < P.np → ∀ (j : Nat) (g : Csx K × List Nat), ((domainsOf P p (lamState (dec P p) (lcopies P p) (lindex P p) sq (localMults P (srt p) p) (cmap p) (halo p)) fun _ => []).map
      fun x => (x.1, x.2.1))[j]? = some g → j < P.first (p + 1) - P.first p ∧
        (domainsOf P p (lamState (dec P p) (lcopies P p) (lindex P p) sq (localMults P (srt p) p) (cmap p) (halo p)) fun d => List.replicate (P.dim d) 0)[j]? =
          some (g.1, g.2, List.replicate (P.dim (P.first p + j)) 0) ∧ g.1.ns = P.dim (P.first p + j) := by
    intro p _ j g hg
    have hj : j < P.first (p + 1) - P.first p := by
      have := (List.getElem?_eq_some_iff.1 hg).1
      rw [List.length_map] at this
      unfold domainsOf at this
      rw [List.length_map, List.length_range] at this
      exact this
    rw [List.getElem?_map, domainsOf_get _ _ hj] at hg
    rw [domainsOf_get _ _ hj]
    cases hg
    exact ⟨hj, rfl, rfl⟩
  have hok : ∀ p, p < P.np → ∀ (j : Nat) (g : Csx K × List Nat), ((domainsOf P p (lamState (dec P p) (lcopies P p) (lindex P p) sq (localMults P (srt p) p) (cmap p) (halo p)) fun _ => []).map
      fun x => (x.1, x.2.1))[j]? = some g → DomainOk (multsOf P srt p).length (g.1, g.2, List.replicate (P.dim (P.first p + j)) (0 : K)) := by
    intro p hp j g hg
    obtain ⟨hj, e, _⟩ := hget p hp j g hg
    exact (domainsOf_ok hP h sq hp (cmap p) (halo p) (fun d => List.replicate (P.dim d) 0) (fun d => List.length_replicate)).1 _ (List.mem_of_getElem? e)
  refine ⟨?_, fun p hp j g hg => (hok p hp j g hg).wf, fun p hp j g hg => (hok p hp j g hg).mlen, fun p hp j g hg => (hok p hp j g hg).mrange, fun p hp j g hg => (hget p hp j g hg).2.2, ?_, ?_⟩
  · intro p _
    rw [List.length_map]
    unfold domainsOf
    rw [List.length_map, List.length_range]
  · intro p hp j g hg k l hk i
    obtain ⟨hj, e, _⟩ := hget p hp j g hg
    have := (domainsOf_ok hP h sq hp (cmap p) (halo p) (fun d => List.replicate (P.dim d) 0) (fun d => List.length_replicate)).2 j hj k l hk i
    rw [← this]
    unfold matrixEntry
    rw [e]
  · intro l d i hd
    unfold entryOf
    rw [if_neg (fun h => hd h.1)]

end

/-! ### Examples -/

/-- Three domains on three processes in a chain: the multiplier 7 glues the unknown 0 of the domain 0 with the unknown 1 of the domain 1, the multiplier 8 the unknowns 0 of the domains 1 and 2. -/
def exampleGlue (p : Nat) : Glue Int :=
  [[(⟨1, 2, [0, 1], [0], [1]⟩, [0])], [(⟨2, 2, [0, 1, 2], [1, 0], [-1, 1]⟩, [0, 1])], [(⟨1, 2, [0, 1], [0], [-1]⟩, [0])]].getD p []

/-- The matrix of the example. -/
def exampleEntry (l d i : Nat) : Int :=
  if l = 7 then (if d = 0 ∧ i = 0 then 1 else if d = 1 ∧ i = 1 then -1 else 0) else (if d = 1 ∧ i = 0 then 1 else if d = 2 ∧ i = 0 then -1 else 0)

theorem example_glued : Glued 3 id (fun p => [[7], [7, 8], [8]].getD p []) (fun l => if l = 7 then [0, 1] else [1, 2]) (fun _ => 2) exampleEntry exampleGlue := by
  have hj : ∀ p, p < 3 → ∀ (j : Nat) (g : Csx Int × List Nat), (exampleGlue p)[j]? = some g →
      (p = 0 ∧ j = 0 ∧ g = (⟨1, 2, [0, 1], [0], [1]⟩, [0])) ∨ (p = 1 ∧ j = 0 ∧ g = (⟨2, 2, [0, 1, 2], [1, 0], [-1, 1]⟩, [0, 1])) ∨ (p = 2 ∧ j = 0 ∧ g = (⟨1, 2, [0, 1], [0], [-1]⟩, [0])) := by
    intro p hp j g hg
    have hp' : p = 0 ∨ p = 1 ∨ p = 2 := by omega
    rcases hp' with rfl | rfl | rfl <;> rcases j with _ | j <;> simp [exampleGlue] at hg ⊢ <;> exact hg.symm
  have hwf : ∀ p, p < 3 → ∀ (j : Nat) (g : Csx Int × List Nat), (exampleGlue p)[j]? = some g → WellFormed g.1 ∧ g.2.length = g.1.np ∧
      (∀ k ∈ g.2, k < ([[7], [7, 8], [8]].getD p []).length) ∧ g.1.ns = 2 := by
    intro p hp j g hg
    rcases hj p hp j g hg with ⟨rfl, rfl, rfl⟩ | ⟨rfl, rfl, rfl⟩ | ⟨rfl, rfl, rfl⟩ <;> exact ⟨⟨by decide, by decide, by decide, by decide, by decide, by decide⟩, by decide, by decide, by decide⟩
  refine ⟨?_, fun p hp j g hg => (hwf p hp j g hg).1, fun p hp j g hg => (hwf p hp j g hg).2.1, fun p hp j g hg => (hwf p hp j g hg).2.2.1, fun p hp j g hg => (hwf p hp j g hg).2.2.2, ?_, ?_⟩
  · intro p hp
    have hp' : p = 0 ∨ p = 1 ∨ p = 2 := by omega
    rcases hp' with rfl | rfl | rfl <;> rfl
  · intro p hp j g hg k l hk i
    rcases hj p hp j g hg with ⟨rfl, rfl, rfl⟩ | ⟨rfl, rfl, rfl⟩ | ⟨rfl, rfl, rfl⟩
    · rcases k with _ | k <;> simp at hk
      subst hk
      rcases i with _ | i <;> simp [Csx.at, Csx.row, exampleEntry]
    · rcases k with _ | _ | k <;> simp at hk <;> subst hk <;> rcases i with _ | _ | i <;> simp [Csx.at, Csx.row, exampleEntry, Finset.sum_range_succ]
    · rcases k with _ | k <;> simp at hk
      subst hk
      rcases i with _ | i <;> simp [Csx.at, Csx.row, exampleEntry]
  · intro l d i hd
    unfold exampleEntry
    by_cases e : l = 7
    · rw [if_pos e] at hd ⊢
      rw [if_neg (fun h => hd (by simp [h.1])), if_neg (fun h => hd (by simp [h.1]))]
    · rw [if_neg e] at hd ⊢
      rw [if_neg (fun h => hd (by simp [h.1])), if_neg (fun h => hd (by simp [h.1]))]

example := C64_apply example_shared rfl example_glued _ example_describes
example := C64_rhs example_shared rfl example_glued _ example_describes
example := C64_primal example_shared example_glued
example := C65_lumped example_shared rfl example_glued _ example_describes
example := C65_dirichlet example_shared rfl example_glued _ example_describes
example := C64_constraints (K := Real) example_ok (fun p _ => sortBy_sorts (lambdaLess (dmapAt exampleProblem p))) Real.sqrt

/-- The process 1 in the example: `K⁺` doubles the values; the unknown 1 has the multiplier 7 with -1. -/
example : implicitApply (exampleGlue 1) (fun _ v => v.map (2 * ·)) [3, 5] [9, 9] [[9, 9]] [[9, 9]] = some ([6, 10], [[5, -3]], [[10, -6]]) := by decide

/-- The Dirichlet preconditioner of a domain with three unknowns, the last two with constraints. -/
example : (boundaryIndices (⟨2, 3, [0, 1, 2], [2, 1], [1, -1]⟩ : Csx Int)) = some [1, 2] ∧
    dirichletApply [((⟨2, 3, [0, 1, 2], [2, 1], [1, -1]⟩ : Csx Int), [0, 1])] [[1, 2]] (fun _ i j => 10 * i + j + 1) [3, 5] [0, 0] [[7, 7, 7]] [[8, 8, 8]] =
      some ([-19, -1], [[-5, 3, 3]], [[1, 1, -19]]) := by decide

end Verif.Feti
