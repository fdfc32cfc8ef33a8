import Verif.Model.DualOperator
import Verif.Spec.FetiSystem
import Verif.Prop.DualMap
import Verif.Prop.Constraints
/-! Lemmas about the operators of the FETI method on distributed vectors (C64, C65). -/
namespace Verif.Feti

open Verif.Csx Verif.Dual Verif.Comm Verif.Mpi Finset

variable {L R : Type} [DecidableEq L] [CommRing R]

/-! ### Loops over domains -/

theorem forDomains_spec {A : Type} (n : Nat) (old : Nat → A) (g : Nat → A) (f : Nat → A → Option A) (h : ∀ d, d < n → f d (old d) = some (g d)) :
    forDomains n (mk n old) f = some (mk n g) := by
  unfold forDomains
  obtain ⟨s, e, hs⟩ := forLoop_inv (Nat.zero_le n) (mk n old) (fun d out => do
    let old ← out[d]?
    let new ← f d old
    wr out d new) (fun i s => s = mk n fun d => if d < i then g d else old d) (mk_congr fun d _ => by simp) (by
      intro i _ hi s hs
      refine ⟨_, ?_, rfl⟩
      rw [hs]
      simp only [Option.bind_eq_bind, mk_get _ hi, Option.bind_some]
      rw [if_neg (Nat.lt_irrefl i), h i hi, Option.bind_some, wr_mk _ _ hi]
      congr 1
      apply mk_congr
      intro d _
      unfold upd
      by_cases hd : d = i
      · simp [hd]
      · rw [if_neg hd]
        dsimp only
        by_cases h' : d < i
        · rw [if_pos h', if_pos (by omega)]
        · rw [if_neg h', if_neg (by omega)])
  rw [e, hs]
  congr 1
  apply mk_congr
  intro d hd
  rw [if_pos hd]

theorem mk_map_list (l : List L) (f : L → R) (d : L) : l.map f = mk l.length fun k => f (l.getD k d) := by
  conv_lhs => rw [mk_of_length l d]
  unfold mk
  rw [List.map_map]
  rfl

theorem getD_any {A : Type} {l : List A} {k : Nat} (d : A) (h : k < l.length) : l[k]? = some (l.getD k d) := by
  rw [List.getD_eq_getElem?_getD, List.getElem?_eq_getElem h]; rfl

/-! ### The part of the matrix of a process -/

/-- The matrices `B1` and the maps `D2C` of the processes are the parts of the matrix `entry`. -/
structure Glued (np : Nat) (first : Nat → Nat) (lam : Nat → List L) (doms : L → List Nat) (dim : Nat → Nat) (entry : L → Nat → Nat → R) (G : Nat → Glue R) : Prop where
  len : ∀ p, p < np → (G p).length = first (p + 1) - first p
  wf : ∀ p, p < np → ∀ (j : Nat) (g : Csx R × List Nat), (G p)[j]? = some g → WellFormed g.1
  mlen : ∀ p, p < np → ∀ (j : Nat) (g : Csx R × List Nat), (G p)[j]? = some g → g.2.length = g.1.np
  mrange : ∀ p, p < np → ∀ (j : Nat) (g : Csx R × List Nat), (G p)[j]? = some g → ∀ k ∈ g.2, k < (lam p).length
  cols : ∀ p, p < np → ∀ (j : Nat) (g : Csx R × List Nat), (G p)[j]? = some g → g.1.ns = dim (first p + j)
  entries : ∀ p, p < np → ∀ (j : Nat) (g : Csx R × List Nat), (G p)[j]? = some g → ∀ (k : Nat) (l : L), (lam p)[k]? = some l → ∀ i,
    (∑ r ∈ range g.1.np, if g.2.getD r 0 = k then g.1.at r i else 0) = entry l (first p + j) i
  zero : ∀ l d i, d ∉ doms l → entry l d i = 0

variable {np : Nat} {first : Nat → Nat} {nb : Nat → List Nat} {lam : Nat → List L} {doms : L → List Nat} {dim : Nat → Nat} {entry : L → Nat → Nat → R} {G : Nat → Glue R}

/-- A multiplier of some process acting on a domain of `p` is a multiplier of `p`. -/
theorem mem_of_acts (H : Shared np first nb lam doms) {p q d : Nat} (hp : p < np) (hq : q < np) {l : L} (hl : l ∈ lam q) (hd : d ∈ doms l) (ho : Owns first p d) : l ∈ lam p := by
  by_cases e : p = q
  · rw [e]; exact hl
  · have ht : touches first p (doms l) = true := List.any_eq_true.2 ⟨d, hd, by simpa using ho⟩
    have h1 : l ∈ (lam q).filter (fun l => touches first p (doms l)) := List.mem_filter.2 ⟨hl, ht⟩
    rw [← H.agree p q hp hq e] at h1
    exact (List.mem_filter.1 h1).1

theorem mem_allMults {l : L} : l ∈ allMults np lam ↔ ∃ p, p < np ∧ l ∈ lam p := by
  unfold allMults
  simp

/-- The entries of a multiplier that is not on the process are zero on the domains of the process. -/
theorem entry_zero (H : Shared np first nb lam doms) (hG : Glued np first lam doms dim entry G) {p d : Nat} (hp : p < np) (ho : Owns first p d) {l : L} (hl : l ∈ allMults np lam)
    (hn : l ∉ lam p) (i : Nat) : entry l d i = 0 := by
  obtain ⟨q, hq, hlq⟩ := mem_allMults.1 hl
  exact hG.zero l d i fun hd => hn (mem_of_acts H hp hq hlq hd ho)

theorem sum_lam (hnd : ∀ p, p < np → (lam p).Nodup) {p : Nat} (hp : p < np) (f : L → R) (h0 : ∀ l ∈ allMults np lam, l ∉ lam p → f l = 0) :
    ∑ l ∈ allMults np lam, f l = ((lam p).map f).sum := by
  rw [← List.sum_toFinset f (hnd p hp)]
  symm
  apply sum_subset
  · intro l hl
    exact mem_allMults.2 ⟨p, hp, List.mem_toFinset.1 hl⟩
  · intro l hl hn
    exact h0 l hl fun h => hn (List.mem_toFinset.2 h)

theorem owns_local {p j : Nat} (hj : j < first (p + 1) - first p) : Owns first p (first p + j) := by unfold Owns; omega

/-- `applyBt` on a distributed vector. -/
theorem applyBt_global (H : Shared np first nb lam doms) (hG : Glued np first lam doms dim entry G) {p j : Nat} (hp : p < np) {g : Csx R × List Nat} (hg : (G p)[j]? = some g) (X : L → R)
    (out : List R) (ho : out.length = dim (first p + j)) (α : R) :
    applyBt g.1 g.2 ((lam p).map X) out α = some (mk (dim (first p + j)) fun i => α * timesBt (allMults np lam) entry X (first p + j) i) := by
  have hj : j < first (p + 1) - first p := by rw [← hG.len p hp]; exact (List.getElem?_eq_some_iff.1 hg).1
  have hmr := hG.mrange p hp j g hg
  obtain ⟨y, h1, h2, h3⟩ := C47_applyBt g.1 g.2 ((lam p).map X) out α ⟨hG.wf p hp j g hg, hG.mlen p hp j g hg, by rw [List.length_map]; exact hmr, by rw [ho, hG.cols p hp j g hg]⟩
  rw [h1]
  congr 1
  rw [mk_of_length y 0, h2, hG.cols p hp j g hg]
  apply mk_congr
  intro i hi
  rw [List.getD_eq_getElem?_getD, h3 i (by rw [hG.cols p hp j g hg]; exact hi), Option.getD_some]
  congr 1
  unfold timesBt
  rw [sum_lam H.nodup hp _ (fun l hl hn => by rw [entry_zero H hG hp (owns_local hj) hl hn, zero_mul])]
  by_cases hne : lam p = []
  · simp only [hne, List.map_nil, List.sum_nil]
    apply sum_eq_zero
    intro r hr
    exfalso
    have := hmr (g.2.getD r 0) (List.mem_of_getElem? (getD_some (by rw [hG.mlen p hp j g hg]; exact mem_range.1 hr)))
    rw [hne] at this
    simp at this
  · obtain ⟨l0, hl0⟩ := List.exists_mem_of_ne_nil _ hne
    rw [mk_map_list (lam p) (fun l => entry l (first p + j) i * X l) l0]
    unfold mk
    rw [list_sum_range]
    have : ∀ k ∈ range (lam p).length, entry ((lam p).getD k l0) (first p + j) i * X ((lam p).getD k l0) =
        ∑ r ∈ range g.1.np, if g.2.getD r 0 = k then g.1.at r i * X ((lam p).getD k l0) else 0 := by
      intro k hk
      rw [← hG.entries p hp j g hg k _ (getD_any l0 (mem_range.1 hk)), Finset.sum_mul]
      apply sum_congr rfl
      intro r _
      rw [ite_mul, zero_mul]
    rw [sum_congr rfl this, sum_comm]
    apply sum_congr rfl
    intro r hr
    have hk := hmr (g.2.getD r 0) (List.mem_of_getElem? (getD_some (by rw [hG.mlen p hp j g hg]; exact mem_range.1 hr)))
    rw [sum_ite_eq, if_pos (mem_range.2 hk)]
    congr 1
    rw [List.getD_eq_getElem?_getD, List.getElem?_map, getD_any l0 hk]
    rfl

/-- The vectors of the domains of the process `p`. -/
def localVectors (first : Nat → Nat) (p : Nat) (v : Nat → List R) : List (List R) := mk (first (p + 1) - first p) fun j => v (first p + j)

/-- The product of the part of the matrix of the process `p` with the vectors. -/
def partB (first : Nat → Nat) (dim : Nat → Nat) (entry : L → Nat → Nat → R) (p : Nat) (v : Nat → List R) (l : L) : R :=
  ∑ j ∈ range (first (p + 1) - first p), ∑ i ∈ range (dim (first p + j)), entry l (first p + j) i * (v (first p + j)).getD i 0

/-- `applyB` of the vectors of the domains. -/
theorem applyB_part (hG : Glued np first lam doms dim entry G) {p : Nat} (hp : p < np) (v : Nat → List R) (hv : ∀ d, Owns first p d → (v d).length = dim d) (out : List R)
    (ho : out.length = (lam p).length) : applyB (glueWith (G p) (localVectors first p v)) out = some ((lam p).map (partB first dim entry p v)) := by
  have hl : (glueWith (G p) (localVectors first p v)).length = first (p + 1) - first p := by
    unfold glueWith localVectors
    rw [List.length_zipWith, mk_length, hG.len p hp, Nat.min_self]
  have hget : ∀ j, j < first (p + 1) - first p → ∃ g, (G p)[j]? = some g ∧ (glueWith (G p) (localVectors first p v))[j]? = some (g.1, g.2, v (first p + j)) := by
    intro j hj
    have hjl : j < (G p).length := by rw [hG.len p hp]; exact hj
    refine ⟨(G p)[j], List.getElem?_eq_getElem hjl, ?_⟩
    unfold glueWith localVectors
    rw [List.getElem?_zipWith, mk_get _ hj, List.getElem?_eq_getElem hjl]
  have hok : ∀ x ∈ glueWith (G p) (localVectors first p v), DomainOk out.length x := by
    intro x hx
    obtain ⟨j, hj, hxj⟩ := List.mem_iff_getElem.1 hx
    obtain ⟨g, hg, e⟩ := hget j (by rw [← hl]; exact hj)
    rw [List.getElem?_eq_getElem hj, hxj] at e
    cases e
    exact ⟨hG.wf p hp j g hg, hG.mlen p hp j g hg, by rw [ho]; exact hG.mrange p hp j g hg, by
      rw [hG.cols p hp j g hg]; exact hv _ (owns_local (by rw [← hl]; exact hj))⟩
  obtain ⟨y, h1, h2, h3⟩ := C47_applyB _ out hok
  rw [h1]
  congr 1
  apply List.ext_getElem?
  intro k
  by_cases hk : k < (lam p).length
  · rw [h3 k (by omega), List.getElem?_map, List.getElem?_eq_getElem hk]
    show some _ = some _
    congr 1
    unfold glued partB
    rw [mk_of_length (glueWith (G p) (localVectors first p v)) (Csx.mk 0 0 [] [] [], [], []), hl]
    unfold mk
    rw [List.map_map, list_sum_range]
    apply sum_congr rfl
    intro j hj
    obtain ⟨g, hg, e⟩ := hget j (mem_range.1 hj)
    have e' : (glueWith (G p) (localVectors first p v)).getD j (Csx.mk 0 0 [] [] [], [], []) = (g.1, g.2, v (first p + j)) := by
      rw [List.getD_eq_getElem?_getD, e, Option.getD_some]
    simp only [Function.comp, e']
    unfold rowProduct
    dsimp only
    rw [hG.cols p hp j g hg]
    have : ∀ i ∈ range (dim (first p + j)), entry ((lam p)[k]) (first p + j) i * (v (first p + j)).getD i 0 =
        ∑ r ∈ range g.1.np, if g.2.getD r 0 = k then g.1.at r i * (v (first p + j)).getD i 0 else 0 := by
      intro i _
      rw [← hG.entries p hp j g hg k _ (List.getElem?_eq_getElem hk), Finset.sum_mul]
      apply sum_congr rfl
      intro r _
      rw [ite_mul, zero_mul]
    rw [sum_congr rfl this, sum_comm]
    apply sum_congr rfl
    intro r _
    by_cases e : g.2.getD r 0 = k
    · simp only [if_pos e]
    · simp only [if_neg e, sum_const_zero]
  · rw [List.getElem?_eq_none (by omega), List.getElem?_eq_none (by rw [List.length_map]; omega)]

/-- The synchronization on all processes, for every schedule, turns the vectors `y` to the vectors `z`. -/
def SyncTo (np : Nat) (nb : Nat → List Nat) (nmap nsize : Nat → List Nat) (y z : Nat → List R) : Prop :=
  ∀ (t : Nat) (send recv : Nat → List (List R)), (∀ p, p < np → (send p).map List.length = nsize p ∧ (recv p).map List.length = nsize p) →
    ∃ packed received : Nat → List (List R), (∀ p, p < np → (packed p).map List.length = nsize p ∧ (received p).map List.length = nsize p) ∧
      (∀ p, p < np → syncPack (nmap p) (y p) (send p) = some (packed p)) ∧
      Completes (world 0 np fun p => exchangeKnownSize t (nb p) (packed p) (recv p)) (finished 0 np fun p => some (received p)) ∧
      ∀ p, p < np → syncAdd (nmap p) (y p) (received p) = some (z p)

theorem sum_parts {first : Nat → Nat} (h0 : first 0 = 0) (hm : ∀ p, first p ≤ first (p + 1)) (f : Nat → R) (n : Nat) :
    ∑ q ∈ range n, ∑ j ∈ range (first (q + 1) - first q), f (first q + j) = ∑ d ∈ range (first n), f d := by
  induction n with
  | zero => rw [h0]; rfl
  | succ n ih =>
      rw [sum_range_succ, ih, show first (n + 1) = first n + (first (n + 1) - first n) by have := hm n; omega, sum_range_add]
      simp

theorem valueOf_map {l : List L} (f : L → R) {x : L} (hx : x ∈ l) : valueOf l (l.map f) x = f x := by
  unfold valueOf
  rw [if_pos hx, List.getD_eq_getElem?_getD, List.getElem?_map, List.getElem?_idxOf hx]
  rfl

/-- The synchronized sum of the local products is the product with the whole matrix. -/
theorem sync_parts (H : Shared np first nb lam doms) (h0 : first 0 = 0) (hG : Glued np first lam doms dim entry G) (cmap : Nat → List Nat)
    (hc : ∀ p, p < np → Describes (cmap p) (lam p) doms) :
    ∃ nmap nsize : Nat → List Nat, (∀ p, p < np → dualMapSet (decOf first nb p) (cmap p) = some (nmap p, nsize p)) ∧
      ∀ v : Nat → List R, SyncTo np nb nmap nsize (fun p => (lam p).map (partB first dim entry p v)) (fun p => (lam p).map (timesB (first np) dim entry (valuesOf v))) := by
  obtain ⟨nmap, nsize, h1, h2⟩ := C61_vector (R := R) H cmap hc
  refine ⟨nmap, nsize, h1, ?_⟩
  intro v t send recv hb
  obtain ⟨packed, received, hl, h3, h4, h5⟩ := h2 t (fun p => (lam p).map (partB first dim entry p v)) send recv (fun p _ => List.length_map _) hb
  refine ⟨packed, received, hl, h3, h4, ?_⟩
  intro p hp
  obtain ⟨z, hz, hzl, hzg⟩ := h5 p hp
  rw [hz]
  congr 1
  apply List.ext_getElem?
  intro k
  by_cases hk : k < (lam p).length
  · rw [hzg k _ (List.getElem?_eq_getElem hk), List.getElem?_map, List.getElem?_eq_getElem hk]
    show some _ = some _
    congr 1
    have hall : (lam p)[k] ∈ allMults np lam := mem_allMults.2 ⟨p, hp, List.getElem_mem hk⟩
    have key : ∀ q ∈ range np, valueOf (lam q) ((lam q).map (partB first dim entry q v)) ((lam p)[k]) = partB first dim entry q v ((lam p)[k]) := by
      intro q hq
      by_cases hm : (lam p)[k] ∈ lam q
      · exact valueOf_map _ hm
      · unfold valueOf partB
        rw [if_neg hm]
        symm
        apply sum_eq_zero
        intro j hj
        apply sum_eq_zero
        intro i _
        rw [entry_zero H hG (mem_range.1 hq) (owns_local (mem_range.1 hj)) hall hm, zero_mul]
    rw [sum_congr rfl key]
    unfold partB timesB valuesOf
    exact sum_parts h0 H.mono (fun d => ∑ i ∈ range (dim d), entry ((lam p)[k]) d i * (v d).getD i 0) np
  · rw [List.getElem?_eq_none (by omega), List.getElem?_eq_none (by rw [List.length_map]; omega)]

/-! ### The operators on a process -/

theorem vectors_mk (n : Nat) (u : List (List R)) (h : u.length = n) : u = mk n fun j => u.getD j [] := by
  rw [← h]; exact mk_of_length u []

/-- The vectors `u` have the sizes of the domains of `p`. -/
def Sized (first : Nat → Nat) (dim : Nat → Nat) (p : Nat) (u : List (List R)) : Prop :=
  u.length = first (p + 1) - first p ∧ ∀ j, j < first (p + 1) - first p → (u.getD j []).length = dim (first p + j)

theorem applyBtAll_global (H : Shared np first nb lam doms) (hG : Glued np first lam doms dim entry G) {p : Nat} (hp : p < np) (X : L → R) (btx : List (List R)) (hb : Sized first dim p btx) :
    applyBtAll (G p) ((lam p).map X) btx = some (localVectors first p (vectorOf dim (timesBt (allMults np lam) entry X))) := by
  unfold applyBtAll localVectors
  rw [hG.len p hp]
  conv_lhs => rw [vectors_mk _ btx hb.1]
  apply forDomains_spec
  intro j hj
  have hjl : j < (G p).length := by rw [hG.len p hp]; exact hj
  simp only [Option.bind_eq_bind]
  rw [List.getElem?_eq_getElem hjl, Option.bind_some, applyBt_global H hG hp (List.getElem?_eq_getElem hjl) X _ (hb.2 j hj)]
  congr 1
  unfold vectorOf
  apply mk_congr
  intro i _
  rw [one_mul]

theorem applyK_global (p : Nat) (solve : Nat → List R → List R) (v : Nat → List R) (y : List (List R)) (hy : y.length = first (p + 1) - first p) :
    applyK (first (p + 1) - first p) (fun j => solve (first p + j)) (localVectors first p v) y = some (localVectors first p fun d => solve d (v d)) := by
  unfold applyK localVectors
  conv_lhs => rw [vectors_mk _ y hy]
  apply forDomains_spec
  intro j hj
  simp only [Option.bind_eq_bind]
  rw [mk_get _ hj]
  rfl

theorem addScaled_spec (n : Nat) (a : R) (f g : Nat → R) : addScaled (mk n f) a (mk n g) = some (mk n fun i => f i + a * g i) := by
  unfold addScaled
  rw [mk_length]
  refine (forLoop_congr _ _ _ ?_).trans (forDomains_spec n f (fun i => f i + a * g i) (fun i v => (mk n g)[i]?.bind fun w => some (v + a * w)) ?_)
  · intro i s _ hi
    simp only [Option.bind_eq_bind]
    cases s[i]? with
    | none => rfl
    | some v =>
        simp only [Option.bind_some]
        cases (mk n g)[i]? with
        | none => rfl
        | some w => rfl
  · intro i hi
    rw [mk_get _ hi]
    rfl

end Verif.Feti
