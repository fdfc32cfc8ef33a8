import Verif.Model.NodeSync
import Verif.Prop.Stress
import Mathlib.Algebra.BigOperators.Group.Finset.Basic
import Mathlib.Algebra.Order.BigOperators.Group.List
import Mathlib.Data.List.Nodup
import Mathlib.Tactic.ByContra
/-! C102: the synchronization of the data of the nodes. -/
namespace Verif.Sync

open Verif.Csx

/-! ### The pointer to the neighbours -/

theorem idxOf_get {nb : List Nat} {r : Nat} (h : r ∈ nb) : nb[nb.idxOf r]? = some r := by
  rw [List.getElem?_eq_getElem (List.idxOf_lt_length_of_mem h), List.getElem_idxOf]

theorem advanceFrom_spec {nb : List Nat} (hs : nb.Pairwise (· < ·)) {r : Nat} (hr : r ∈ nb) : ∀ k i, i ≤ nb.idxOf r → nb.idxOf r < i + k → advanceFrom nb r k i = some (nb.idxOf r) := by
  have hlt := List.idxOf_lt_length_of_mem hr
  intro k
  induction k with
  | zero => intro i _ _; omega
  | succ k ih =>
    intro i h1 h2
    rw [advanceFrom, List.getElem?_eq_getElem (show i < nb.length by omega)]
    show (if nb[i] < r then _ else _) = _
    by_cases e : i = nb.idxOf r
    · subst e
      rw [if_neg]
      rw [List.getElem_idxOf]
      exact Nat.lt_irrefl r
    · rw [if_pos]
      · exact ih (i + 1) (by omega) (by omega)
      · have := List.pairwise_iff_getElem.1 hs i (nb.idxOf r) (by omega) hlt (by omega)
        rwa [List.getElem_idxOf] at this

theorem advance_spec {nb : List Nat} (hs : nb.Pairwise (· < ·)) {r : Nat} (hr : r ∈ nb) {i : Nat} (hi : i ≤ nb.idxOf r) : advance nb r i = some (nb.idxOf r) :=
  advanceFrom_spec hs hr _ i hi (by have := List.idxOf_lt_length_of_mem hr; omega)

theorem idxOf_mono {nb : List Nat} (hs : nb.Pairwise (· < ·)) {r r' : Nat} (h : r ∈ nb) (h' : r' ∈ nb) (hlt : r < r') : nb.idxOf r ≤ nb.idxOf r' := by
  by_contra hc
  have := List.pairwise_iff_getElem.1 hs (nb.idxOf r') (nb.idxOf r) (List.idxOf_lt_length_of_mem h') (List.idxOf_lt_length_of_mem h) (by omega)
  rw [List.getElem_idxOf, List.getElem_idxOf] at this
  omega

theorem walk_aux {σ : Type} {nb : List Nat} (hs : nb.Pairwise (· < ·)) (rank : Nat) (f : Nat → σ → Option σ) : ∀ (rs : List Nat) (i : Nat) (s : σ), rs.Pairwise (· < ·) →
    (∀ r ∈ rs, r ≠ rank → r ∈ nb ∧ i ≤ nb.idxOf r) →
    ((rs.foldlM (fun (st : Nat × σ) r => if r ≠ rank then do
      let i ← advance nb r st.1
      let s ← f i st.2
      some (i, s) else some st) (i, s)).bind fun st => some st.2) = (rs.filter (· ≠ rank)).foldlM (fun s r => f (nb.idxOf r) s) s := by
  intro rs
  induction rs with
  | nil => intros; rfl
  | cons r rs ih =>
    intro i s hp h
    rw [List.pairwise_cons] at hp
    rw [List.foldlM_cons]
    by_cases hr : r = rank
    · rw [if_neg (by simpa using hr), List.filter_cons_of_neg (by simpa using hr)]
      exact ih i s hp.2 fun r' hr' => h r' (List.mem_cons_of_mem _ hr')
    · rw [if_pos hr, List.filter_cons_of_pos (by simpa using hr), List.foldlM_cons]
      obtain ⟨h1, h2⟩ := h r List.mem_cons_self hr
      rw [advance_spec hs h1 h2]
      show (((f (nb.idxOf r) s).bind fun s => some (nb.idxOf r, s)).bind _).bind _ = _
      cases hf : f (nb.idxOf r) s with
      | none => rfl
      | some s' =>
        refine ih (nb.idxOf r) s' hp.2 fun r' hr' hne => ?_
        obtain ⟨k1, k2⟩ := h r' (List.mem_cons_of_mem _ hr') hne
        exact ⟨k1, idxOf_mono hs h1 k1 (hp.1 r' hr')⟩

theorem walk_spec {σ : Type} {nb : List Nat} (hs : nb.Pairwise (· < ·)) (rank : Nat) (f : Nat → σ → Option σ) (rs : List Nat) (s : σ) (hp : rs.Pairwise (· < ·)) (h : ∀ r ∈ rs, r ≠ rank → r ∈ nb) :
    walk nb rank f rs s = (rs.filter (· ≠ rank)).foldlM (fun s r => f (nb.idxOf r) s) s :=
  walk_aux hs rank f rs 0 s hp fun r hr hn => ⟨h r hr hn, Nat.zero_le _⟩

/-- The array over the neighbours has the values `B`. -/
def Holds {A : Type} (nb : List Nat) (l : List A) (B : Nat → A) : Prop := l.length = nb.length ∧ ∀ q ∈ nb, l[nb.idxOf q]? = some (B q)

theorem Holds.set {A : Type} {nb : List Nat} {l : List A} {B : Nat → A} (h : Holds nb l B) {r : Nat} (hr : r ∈ nb) (a : A) : Holds nb (l.set (nb.idxOf r) a) (fun q => if q = r then a else B q) := by
  refine ⟨by rw [List.length_set, h.1], fun q hq => ?_⟩
  have hlt : nb.idxOf r < l.length := by rw [h.1]; exact List.idxOf_lt_length_of_mem hr
  dsimp only
  rw [getElem?_set' _ _ _ _ hlt]
  by_cases hqr : q = r
  · subst hqr
    rw [if_pos rfl, if_pos rfl]
  · rw [if_neg hqr, if_neg]
    · exact h.2 q hq
    · intro e
      have e1 := idxOf_get hq
      rw [← e, idxOf_get hr] at e1
      exact hqr (Option.some.inj e1).symm

section
variable {K : Type} [AddCommMonoid K]

/-- The values of a node. -/
def block (dim : Nat) (data : List K) (n : Nat) : List K := (List.range dim).map fun d => data.getD (n * dim + d) 0

theorem getD_get {l : List K} {i : Nat} (h : i < l.length) : l[i]? = some (l.getD i 0) := by
  rw [List.getD_eq_getElem?_getD, List.getElem?_eq_getElem h]
  rfl

theorem push_spec {dim : Nat} {data : List K} {n : Nat} (hn : n * dim + dim ≤ data.length) {nb : List Nat} {sb : List (List K)} {B : Nat → List K} (h : Holds nb sb B) {r : Nat} (hr : r ∈ nb) :
    ∃ w, push dim data n (nb.idxOf r) sb = some w ∧ Holds nb w (fun q => if q = r then B q ++ block dim data n else B q) := by
  unfold push
  obtain ⟨w, e1, e2⟩ := forLoop_inv (Nat.zero_le dim) sb (fun d sb => do
      let x ← data[n * dim + d]?
      let b ← sb[nb.idxOf r]?
      wr sb (nb.idxOf r) (b ++ [x])) (fun i w => Holds nb w (fun q => if q = r then B q ++ (List.range i).map (fun d => data.getD (n * dim + d) 0) else B q))
    (by
      refine ⟨h.1, fun q hq => ?_⟩
      rw [h.2 q hq]
      by_cases hqr : q = r
      · simp [hqr]
      · simp [hqr]) (by
      intro i _ hi w hw
      have hb := hw.2 r hr
      dsimp only at hb
      rw [if_pos rfl] at hb
      have hlt : nb.idxOf r < w.length := by rw [hw.1]; exact List.idxOf_lt_length_of_mem hr
      refine ⟨w.set (nb.idxOf r) (B r ++ (List.range i).map (fun d => data.getD (n * dim + d) 0) ++ [data.getD (n * dim + i) 0]), ?_, ?_⟩
      · rw [getD_get (show n * dim + i < data.length by omega), hb]
        show wr _ _ _ = _
        unfold wr
        rw [if_pos hlt]
      · have := hw.set hr (B r ++ (List.range i).map (fun d => data.getD (n * dim + d) 0) ++ [data.getD (n * dim + i) 0])
        refine ⟨this.1, fun q hq => (this.2 q hq).trans ?_⟩
        dsimp only
        by_cases hqr : q = r
        · subst hqr
          rw [if_pos rfl, if_pos rfl, List.range_succ, List.map_append, List.append_assoc]
          rfl
        · rw [if_neg hqr, if_neg hqr, if_neg hqr])
  exact ⟨w, e1, e2⟩

theorem pushes_spec {dim : Nat} {data : List K} {n : Nat} (hn : n * dim + dim ≤ data.length) {nb : List Nat} : ∀ (rs : List Nat) (sb : List (List K)) (B : Nat → List K), rs.Nodup → (∀ r ∈ rs, r ∈ nb) →
    Holds nb sb B → ∃ w, rs.foldlM (fun s r => push dim data n (nb.idxOf r) s) sb = some w ∧ Holds nb w (fun q => if q ∈ rs then B q ++ block dim data n else B q) := by
  intro rs
  induction rs with
  | nil => exact fun sb B _ _ h => ⟨sb, rfl, by simpa using h⟩
  | cons r rs ih =>
    intro sb B hnd hin h
    rw [List.nodup_cons] at hnd
    obtain ⟨w, e1, e2⟩ := push_spec hn h (hin r List.mem_cons_self)
    obtain ⟨w', f1, f2⟩ := ih w _ hnd.2 (fun r' hr' => hin r' (List.mem_cons_of_mem _ hr')) e2
    refine ⟨w', ?_, f2.1, fun q hq => (f2.2 q hq).trans ?_⟩
    · rw [List.foldlM_cons, e1]
      exact f1
    · dsimp only
      by_cases hqr : q = r
      · subst hqr
        rw [if_neg hnd.1, if_pos rfl, if_pos List.mem_cons_self]
      · simp [hqr]

theorem pull_spec {dim : Nat} {rb : List (List K)} {n : Nat} {nb : List Nat} {off : List Nat} {data : List K} {O : Nat → Nat} {X v : Nat → K} {b : List K} {r : Nat} (hr : r ∈ nb) (ho : Holds nb off O)
    (hb : rb[nb.idxOf r]? = some b) (hv : ∀ d < dim, b[O r + d]? = some (v d)) (hX : ∀ d < dim, data[n * dim + d]? = some (X d)) :
    ∃ off' data', pull dim rb n (nb.idxOf r) (off, data) = some (off', data') ∧ Holds nb off' (fun q => if q = r then O q + dim else O q) ∧ data'.length = data.length ∧
      (∀ d < dim, data'[n * dim + d]? = some (X d + v d)) ∧ ∀ k, k < n * dim ∨ n * dim + dim ≤ k → data'[k]? = data[k]? := by
  unfold pull
  obtain ⟨⟨off', data'⟩, e1, e2, e3, e4, _, e6⟩ := forLoop_inv (Nat.zero_le dim) (off, data) (fun d st => do
      let o ← st.1[nb.idxOf r]?
      let b ← rb[nb.idxOf r]?
      let x ← b[o]?
      let data ← Verif.Feti.addAt st.2 (n * dim + d) x
      let off ← wr st.1 (nb.idxOf r) (o + 1)
      some (off, data)) (fun i st => Holds nb st.1 (fun q => if q = r then O q + i else O q) ∧ st.2.length = data.length ∧
      (∀ d < i, st.2[n * dim + d]? = some (X d + v d)) ∧ (∀ d, i ≤ d → d < dim → st.2[n * dim + d]? = some (X d)) ∧ ∀ k, k < n * dim ∨ n * dim + dim ≤ k → st.2[k]? = data[k]?)
    ⟨by simpa using ho, rfl, fun d hd => absurd hd (Nat.not_lt_zero d), fun d _ hd => hX d hd, fun _ _ => rfl⟩ (by
      rintro i _ hi ⟨o, w⟩ ⟨w1, w2, w3, w4, w5⟩
      dsimp only at w1 w2 w3 w4 w5
      have ho' := w1.2 r hr
      dsimp only at ho'
      rw [if_pos rfl] at ho'
      have hold : nb.idxOf r < o.length := by rw [w1.1]; exact List.idxOf_lt_length_of_mem hr
      obtain ⟨hlt, hget⟩ := List.getElem?_eq_some_iff.1 (w4 i le_rfl hi)
      refine ⟨(o.set (nb.idxOf r) (O r + i + 1), w.set (n * dim + i) (w[n * dim + i] + v i)), ?_, ?_, by rw [List.length_set, w2], ?_, ?_, ?_⟩
      · dsimp only
        rw [ho', hb]
        show (b[O r + i]?).bind _ = _
        rw [hv i hi]
        show (Verif.Feti.addAt w (n * dim + i) (v i)).bind _ = _
        rw [Verif.Feti.addAt_some hlt]
        show (wr o (nb.idxOf r) (O r + i + 1)).bind _ = _
        unfold wr
        rw [if_pos hold]
        rfl
      · have := w1.set hr (O r + i + 1)
        refine ⟨this.1, fun q hq => (this.2 q hq).trans ?_⟩
        dsimp only
        by_cases hqr : q = r
        · subst hqr
          rw [if_pos rfl, if_pos rfl, Nat.add_assoc]
        · rw [if_neg hqr, if_neg hqr, if_neg hqr]
      · intro d hd
        dsimp only
        rw [getElem?_set' _ _ _ _ hlt]
        by_cases hdi : d = i
        · subst hdi
          rw [if_pos rfl, hget]
        · rw [if_neg (by omega)]
          exact w3 d (by omega)
      · intro d hd hdd
        dsimp only
        rw [getElem?_set' _ _ _ _ hlt, if_neg (by omega)]
        exact w4 d (by omega) hdd
      · intro k hk
        dsimp only
        rw [getElem?_set' _ _ _ _ hlt, if_neg (by omega)]
        exact w5 k hk)
  exact ⟨off', data', e1, e2, e3, e4, e6⟩

theorem pulls_spec {dim : Nat} {rb : List (List K)} {n : Nat} {nb : List Nat} {b : Nat → List K} {v : Nat → Nat → K} : ∀ (rs : List Nat) (off : List Nat) (data : List K) (O : Nat → Nat) (X : Nat → K), rs.Nodup →
    (∀ r ∈ rs, r ∈ nb ∧ rb[nb.idxOf r]? = some (b r) ∧ ∀ d < dim, (b r)[O r + d]? = some (v r d)) → Holds nb off O → (∀ d < dim, data[n * dim + d]? = some (X d)) →
    ∃ off' data', rs.foldlM (fun s r => pull dim rb n (nb.idxOf r) s) (off, data) = some (off', data') ∧ Holds nb off' (fun q => if q ∈ rs then O q + dim else O q) ∧ data'.length = data.length ∧
      (∀ d < dim, data'[n * dim + d]? = some (X d + (rs.map fun r => v r d).sum)) ∧ ∀ k, k < n * dim ∨ n * dim + dim ≤ k → data'[k]? = data[k]? := by
  intro rs
  induction rs with
  | nil =>
    intro off data O X _ _ ho hX
    exact ⟨off, data, rfl, by simpa using ho, rfl, fun d hd => by rw [hX d hd]; simp, fun _ _ => rfl⟩
  | cons r rs ih =>
    intro off data O X hnd h ho hX
    rw [List.nodup_cons] at hnd
    obtain ⟨h1, h2, h3⟩ := h r List.mem_cons_self
    obtain ⟨off1, data1, e1, e2, e3, e4, e5⟩ := pull_spec (v := v r) h1 ho h2 h3 hX
    obtain ⟨off2, data2, f1, f2, f3, f4, f5⟩ := ih off1 data1 _ _ hnd.2 (fun r' hr' => by
      obtain ⟨k1, k2, k3⟩ := h r' (List.mem_cons_of_mem _ hr')
      refine ⟨k1, k2, fun d hd => ?_⟩
      have hne : r' ≠ r := fun e => hnd.1 (e ▸ hr')
      rw [if_neg hne]
      exact k3 d hd) e2 e4
    refine ⟨off2, data2, ?_, ⟨f2.1, fun q hq => (f2.2 q hq).trans ?_⟩, f3.trans e3, ?_, fun k hk => (f5 k hk).trans (e5 k hk)⟩
    · rw [List.foldlM_cons, e1]
      exact f1
    · dsimp only
      by_cases hqr : q = r
      · subst hqr
        rw [if_neg hnd.1, if_pos rfl, if_pos List.mem_cons_self]
      · simp [hqr]
    · intro d hd
      rw [f4 d hd, List.map_cons, List.sum_cons, add_assoc]

/-! ### The mesh -/

/-- The processes with a node, in ascending order. -/
def hosts (P : Nat) (G : Nat → List Nat) (g : Nat) : List Nat := (List.range P).filter fun q => g ∈ G q

theorem hosts_sorted (P : Nat) (G : Nat → List Nat) (g : Nat) : (hosts P G g).Pairwise (· < ·) := List.Pairwise.filter _ List.pairwise_lt_range

theorem hosts_nodup (P : Nat) (G : Nat → List Nat) (g : Nat) : (hosts P G g).Nodup := List.Nodup.filter _ List.nodup_range

theorem mem_hosts {P : Nat} {G : Nat → List Nat} {g q : Nat} : q ∈ hosts P G g ↔ q < P ∧ g ∈ G q := by
  unfold hosts
  rw [List.mem_filter, List.mem_range, decide_eq_true_iff]

/-- `P` processes: `G p` are the nodes of the process `p` by their global numbers, `nb p` its neighbours.  Two processes have their common nodes in the same order, and processes with a common node are neighbours. -/
structure Mesh (P : Nat) (G nb : Nat → List Nat) : Prop where
  nodup : ∀ p < P, (G p).Nodup
  order : ∀ p < P, ∀ q < P, (G p).filter (· ∈ G q) = (G q).filter (· ∈ G p)
  sorted : ∀ p < P, (nb p).Pairwise (· < ·)
  inside : ∀ p < P, ∀ q ∈ nb p, q < P ∧ q ≠ p
  symm : ∀ p < P, ∀ q ∈ nb p, p ∈ nb q
  cover : ∀ p < P, ∀ q < P, q ≠ p → ∀ g, g ∈ G p → g ∈ G q → q ∈ nb p

/-- The values at the common nodes of two processes. -/
def common (dim : Nat) (G : Nat → List Nat) (data : List K) (p q : Nat) : List K := ((G p).filter (· ∈ G q)).flatMap fun g => block dim data ((G p).idxOf g)

theorem take_filter_succ {l : List Nat} {n : Nat} (hn : n < l.length) (f : Nat → Bool) : (l.take (n + 1)).filter f = (l.take n).filter f ++ if f l[n] then [l[n]] else [] := by
  rw [List.take_succ_eq_append_getElem hn, List.filter_append]
  congr 1
  by_cases hf : f l[n] <;> simp [hf]

theorem pack_spec {P : Nat} {G nb : Nat → List Nat} (M : Mesh P G nb) (dim : Nat) {p : Nat} (hp : p < P) (data : List K) (hd : data.length = (G p).length * dim) :
    ∃ sb, pack dim (nb p) p ((G p).map (hosts P G)) data = some sb ∧ Holds (nb p) sb (common dim G data p) := by
  unfold pack
  obtain ⟨sb, e1, e2⟩ := forLoop_inv (Nat.zero_le ((G p).map (hosts P G)).length) (List.replicate (nb p).length []) (fun n sb => do
      let rs ← ((G p).map (hosts P G))[n]?
      walk (nb p) p (push dim data n) rs sb)
    (fun n sb => Holds (nb p) sb fun q => (((G p).take n).filter (· ∈ G q)).flatMap fun g => block dim data ((G p).idxOf g))
    ⟨List.length_replicate, fun q hq => by
      rw [List.getElem?_replicate, if_pos (List.idxOf_lt_length_of_mem hq)]
      simp⟩ (by
      intro n _ hn sb h
      rw [List.length_map] at hn
      rw [List.getElem?_map, List.getElem?_eq_getElem hn]
      show ∃ s', walk (nb p) p (push dim data n) (hosts P G (G p)[n]) sb = some s' ∧ _
      have hin : ∀ r ∈ hosts P G (G p)[n], r ≠ p → r ∈ nb p := fun r hr hne => M.cover p hp r (mem_hosts.1 hr).1 hne _ (List.getElem_mem hn) (mem_hosts.1 hr).2
      rw [walk_spec (M.sorted p hp) p _ _ sb (hosts_sorted _ _ _) hin]
      have hlen : n * dim + dim ≤ data.length := by
        rw [hd, ← Nat.succ_mul]
        exact Nat.mul_le_mul_right _ hn
      obtain ⟨w, f1, f2⟩ := pushes_spec (nb := nb p) hlen ((hosts P G (G p)[n]).filter (· ≠ p)) sb _ (List.Nodup.filter _ (hosts_nodup _ _ _))
        (fun r hr => hin r (List.mem_filter.1 hr).1 (by simpa using (List.mem_filter.1 hr).2)) h
      refine ⟨w, f1, f2.1, fun q hq => (f2.2 q hq).trans ?_⟩
      dsimp only
      obtain ⟨q1, q2⟩ := M.inside p hp q hq
      rw [take_filter_succ hn, List.flatMap_append]
      by_cases hg : (G p)[n] ∈ G q
      · rw [if_pos (List.mem_filter.2 ⟨mem_hosts.2 ⟨q1, hg⟩, by simpa using q2⟩), if_pos (by simpa using hg), List.flatMap_singleton, (M.nodup p hp).idxOf_getElem]
      · rw [if_neg (fun hc => hg (mem_hosts.1 (List.mem_filter.1 hc).1).2), if_neg (by simpa using hg)]
        simp)
  refine ⟨sb, e1, e2.1, fun q hq => (e2.2 q hq).trans ?_⟩
  rw [List.length_map, List.take_length]
  rfl

theorem mapM_eq {A B : Type} {f : A → Option B} {g : A → B} : ∀ (l : List A), (∀ a ∈ l, f a = some (g a)) → l.mapM f = some (l.map g) := by
  intro l
  induction l with
  | nil => intro _; rfl
  | cons a l ih =>
    intro h
    rw [List.mapM_cons, h a List.mem_cons_self, ih fun b hb => h b (List.mem_cons_of_mem _ hb)]
    rfl

theorem received_spec {P : Nat} {G nb : Nat → List Nat} (M : Mesh P G nb) (dim : Nat) {p : Nat} (hp : p < P) (data : Nat → List K) (hd : ∀ q < P, (data q).length = (G q).length * dim) :
    ∃ rb, received dim nb (fun q => (G q).map (hosts P G)) data p = some rb ∧ Holds (nb p) rb (fun q => common dim G (data q) q p) := by
  refine ⟨(nb p).map fun q => common dim G (data q) q p, ?_, List.length_map _, ?_⟩
  · unfold received
    apply mapM_eq
    intro q hq
    obtain ⟨sb, e1, e2⟩ := pack_spec M dim (M.inside p hp q hq).1 (data q) (hd q (M.inside p hp q hq).1)
    rw [e1]
    exact e2.2 p (M.symm p hp q hq)
  · intro q hq
    rw [List.getElem?_map, idxOf_get hq]
    rfl

theorem flatMap_length {A : Type} {f : A → List K} {dim : Nat} (hf : ∀ a, (f a).length = dim) (l : List A) : (l.flatMap f).length = l.length * dim := by
  induction l with
  | nil => simp
  | cons a l ih => rw [List.flatMap_cons, List.length_append, hf, ih, List.length_cons, Nat.succ_mul, Nat.add_comm]

theorem common_get {P : Nat} {G nb : Nat → List Nat} (M : Mesh P G nb) (dim : Nat) {p q : Nat} (hp : p < P) (hq : q < P) (data : List K) {n : Nat} (hn : n < (G p).length) (hg : (G p)[n] ∈ G q) {d : Nat} (hd : d < dim) :
    (common dim G data q p)[(((G p).take n).filter (· ∈ G q)).length * dim + d]? = some (data.getD ((G q).idxOf (G p)[n] * dim + d) 0) := by
  have hl : ∀ g, (block dim data ((G q).idxOf g)).length = dim := fun g => by unfold block; rw [List.length_map, List.length_range]
  have hs : (G p).filter (· ∈ G q) = ((G p).take n).filter (· ∈ G q) ++ (G p)[n] :: ((G p).drop (n + 1)).filter (· ∈ G q) := by
    conv_lhs => rw [← List.take_append_drop n (G p)]
    rw [List.filter_append, List.drop_eq_getElem_cons hn, List.filter_cons_of_pos (by simpa using hg)]
  unfold common
  rw [← M.order p hp q hq, hs, List.flatMap_append, List.getElem?_append_right (by rw [flatMap_length hl]; exact Nat.le_add_right _ _), flatMap_length hl, Nat.add_sub_cancel_left, List.flatMap_cons,
    List.getElem?_append_left (by rw [hl]; exact hd)]
  unfold block
  rw [List.getElem?_map, List.getElem?_range hd]
  rfl

theorem sum_hosts {P : Nat} {G : Nat → List Nat} {g p : Nat} (hp : p < P) (hg : g ∈ G p) (F : Nat → K) :
    F p + (((hosts P G g).filter (· ≠ p)).map F).sum = ∑ q ∈ (Finset.range P).filter (fun q => g ∈ G q), F q := by
  rw [← List.sum_toFinset F (List.Nodup.filter _ (hosts_nodup P G g)), ← Finset.add_sum_erase _ F (Finset.mem_filter.2 ⟨Finset.mem_range.2 hp, hg⟩)]
  congr 1
  apply Finset.sum_congr _ fun _ _ => rfl
  ext q
  rw [List.mem_toFinset, List.mem_filter, mem_hosts, Finset.mem_erase, Finset.mem_filter, Finset.mem_range]
  simp only [ne_eq, decide_eq_true_eq]
  exact and_comm

/-- After the synchronization every process has at each of its nodes the sum over the processes with the node. -/
theorem C102_sum {P : Nat} {G nb : Nat → List Nat} (M : Mesh P G nb) (dim : Nat) (data : Nat → List K) (hd : ∀ q < P, (data q).length = (G q).length * dim) {p : Nat} (hp : p < P) :
    ∃ w, synchronize dim nb (fun q => (G q).map (hosts P G)) data p = some w ∧ w.length = (data p).length ∧
      ∀ n (hn : n < (G p).length), ∀ d < dim, w[n * dim + d]? = some (∑ q ∈ (Finset.range P).filter (fun q => (G p)[n] ∈ G q), (data q).getD ((G q).idxOf (G p)[n] * dim + d) 0) := by
  obtain ⟨sb, s1, _⟩ := pack_spec M dim hp (data p) (hd p hp)
  obtain ⟨rb, r1, r2⟩ := received_spec M dim hp data hd
  have hX : ∀ n < (G p).length, ∀ d < dim, n * dim + d < (data p).length := by
    intro n hn d hd'
    have : (n + 1) * dim ≤ (G p).length * dim := Nat.mul_le_mul_right _ hn
    rw [Nat.succ_mul, ← hd p hp] at this
    omega
  obtain ⟨st, e1, e2, e3, e4, _⟩ := forLoop_inv (Nat.zero_le ((G p).map (hosts P G)).length) (List.replicate (nb p).length 0, data p) (fun n st => do
      let rs ← ((G p).map (hosts P G))[n]?
      walk (nb p) p (pull dim rb n) rs st)
    (fun n st => Holds (nb p) st.1 (fun q => (((G p).take n).filter (· ∈ G q)).length * dim) ∧ st.2.length = (data p).length ∧
      (∀ m (hm : m < (G p).length), m < n → ∀ d < dim, st.2[m * dim + d]? = some (∑ q ∈ (Finset.range P).filter (fun q => (G p)[m] ∈ G q), (data q).getD ((G q).idxOf (G p)[m] * dim + d) 0)) ∧
      ∀ k, n * dim ≤ k → st.2[k]? = (data p)[k]?)
    ⟨⟨List.length_replicate, fun q hq => by
      rw [List.getElem?_replicate, if_pos (List.idxOf_lt_length_of_mem hq)]
      simp⟩, rfl, fun m _ hm => absurd hm (Nat.not_lt_zero m), fun _ _ => rfl⟩ (by
      rintro n _ hn ⟨off, w⟩ ⟨h1, h2, h3, h4⟩
      dsimp only at h1 h2 h3 h4
      rw [List.length_map] at hn
      rw [List.getElem?_map, List.getElem?_eq_getElem hn]
      show ∃ s', walk (nb p) p (pull dim rb n) (hosts P G (G p)[n]) (off, w) = some s' ∧ _
      have hin : ∀ r ∈ hosts P G (G p)[n], r ≠ p → r ∈ nb p := fun r hr hne => M.cover p hp r (mem_hosts.1 hr).1 hne _ (List.getElem_mem hn) (mem_hosts.1 hr).2
      rw [walk_spec (M.sorted p hp) p _ _ _ (hosts_sorted _ _ _) hin]
      obtain ⟨off', w', f1, f2, f3, f4, f5⟩ := pulls_spec (nb := nb p) (b := fun q => common dim G (data q) q p) (v := fun q d => (data q).getD ((G q).idxOf (G p)[n] * dim + d) 0)
        ((hosts P G (G p)[n]).filter (· ≠ p)) off w _ (fun d => (data p).getD (n * dim + d) 0) (List.Nodup.filter _ (hosts_nodup _ _ _))
        (fun r hr => by
          obtain ⟨a1, a2⟩ := List.mem_filter.1 hr
          have a3 := hin r a1 (by simpa using a2)
          exact ⟨a3, r2.2 r a3, fun d hd' => common_get M dim hp (mem_hosts.1 a1).1 (data r) hn (mem_hosts.1 a1).2 hd'⟩) h1
        (fun d hd' => by rw [h4 _ (Nat.le_add_right _ _)]; exact getD_get (hX n hn d hd'))
      refine ⟨(off', w'), f1, ⟨f2.1, fun q hq => (f2.2 q hq).trans ?_⟩, f3.trans h2, ?_, ?_⟩
      · dsimp only
        obtain ⟨q1, q2⟩ := M.inside p hp q hq
        rw [take_filter_succ hn, List.length_append]
        by_cases hg : (G p)[n] ∈ G q
        · rw [if_pos (List.mem_filter.2 ⟨mem_hosts.2 ⟨q1, hg⟩, by simpa using q2⟩), if_pos (by simpa using hg), List.length_singleton, Nat.succ_mul]
        · rw [if_neg (fun hc => hg (mem_hosts.1 (List.mem_filter.1 hc).1).2), if_neg (by simpa using hg)]
          simp
      · intro m hm hmn d hd'
        dsimp only
        by_cases e : m = n
        · subst e
          rw [f4 d hd', ← sum_hosts hp (List.getElem_mem hn), (M.nodup p hp).idxOf_getElem]
        · have : (m + 1) * dim ≤ n * dim := Nat.mul_le_mul_right _ (by omega)
          rw [Nat.succ_mul] at this
          rw [f5 _ (by omega)]
          exact h3 m hm (by omega) d hd'
      · intro k hk
        rw [Nat.succ_mul] at hk
        dsimp only
        rw [f5 k (by omega)]
        exact h4 k (by omega))
  refine ⟨st.2, ?_, e3, fun n hn => e4 n hn (by rw [List.length_map]; exact hn)⟩
  unfold synchronize unpack
  rw [s1, r1]
  show (forLoop 0 ((G p).map (hosts P G)).length (List.replicate (nb p).length 0, data p) _).bind _ = _
  rw [e1]
  rfl

/-- All processes with a node have the same value. -/
theorem C102_agree {P : Nat} {G nb : Nat → List Nat} (M : Mesh P G nb) (dim : Nat) (data : Nat → List K) (hd : ∀ q < P, (data q).length = (G q).length * dim) {p q : Nat} (hp : p < P) (hq : q < P) {n m : Nat}
    (hn : n < (G p).length) (hm : m < (G q).length) (e : (G p)[n] = (G q)[m]) :
    ∃ v w, synchronize dim nb (fun q => (G q).map (hosts P G)) data p = some v ∧ synchronize dim nb (fun q => (G q).map (hosts P G)) data q = some w ∧ ∀ d < dim, ∃ x, v[n * dim + d]? = some x ∧ w[m * dim + d]? = some x := by
  obtain ⟨v, v1, _, v3⟩ := C102_sum M dim data hd hp
  obtain ⟨w, w1, _, w3⟩ := C102_sum M dim data hd hq
  refine ⟨v, w, v1, w1, fun d hd' => ⟨_, v3 n hn d hd', ?_⟩⟩
  rw [w3 m hm d hd', e]

end

/-! ### The averages of the nodes over all processes -/

section
variable {K : Type} [Field K]

open Verif.Stress

theorem counts_spec (nodes : Nat) (elements : List (List Nat)) (h : ∀ e ∈ elements, ∀ n ∈ e, n < nodes) :
    ∃ c : List K, counts nodes elements = some c ∧ c.length = nodes ∧ ∀ n < nodes, c[n]? = some ((elements.flatten.count n : Nat) : K) := by
  have he : (counts nodes elements : Option (List K)) = Verif.Feti.runOps (elements.flatMap fun e => e.map fun k => (k, (1 : K))) (List.replicate nodes 0) := by
    rw [← Verif.Feti.foldlM_runOps]
    unfold counts
    congr 1
    funext m e
    unfold Verif.Feti.runOps
    rw [List.foldlM_map]
  obtain ⟨w, e1, e2, e3⟩ := Verif.Feti.runOps_spec (elements.flatMap fun e => e.map fun k => (k, (1 : K))) (List.replicate nodes 0) (by
    intro op hop
    obtain ⟨e, he, hop⟩ := List.mem_flatMap.1 hop
    obtain ⟨k, hk, rfl⟩ := List.mem_map.1 hop
    rw [List.length_replicate]
    exact h e he k hk)
  rw [List.length_replicate] at e2 e3
  refine ⟨w, he.trans e1, e2, fun n hn => ?_⟩
  have hz : (List.replicate nodes (0 : K)).getD n 0 = 0 := by
    rw [List.getD_eq_getElem?_getD, List.getElem?_replicate, if_pos hn]
    rfl
  rw [e3 n hn, hz, zero_add, ← total_ones, List.map_flatten, List.flatMap_def]

theorem averages_spec (width nodes : Nat) (m : List K) (hm : m.length = nodes) (visits : List (Visit K)) (hin : ∀ x ∈ visits, x.node < nodes) :
    ∃ w, averages width nodes m visits = some w ∧ w.length = width * nodes ∧ ∀ n < nodes, ∀ d < width, w[width * n + d]? = some (m.getD n 0 * (valuesAt visits n d).sum) := by
  let F : Visit K → List (Nat × K) := fun x => (List.range width).map fun d => (width * x.node + d, m.getD x.node 0 * x.value d)
  have he : averages width nodes m visits = Verif.Feti.runOps (visits.flatMap F) (List.replicate (width * nodes) 0) := by
    rw [← Verif.Feti.foldlM_runOps]
    apply Verif.Stress.foldlM_congr
    intro x hx avg
    rw [getD_get (show x.node < m.length by rw [hm]; exact hin x hx)]
    exact addNode_ops _ _ _ _ _
  obtain ⟨w, e1, e2, e3⟩ := Verif.Feti.runOps_spec (visits.flatMap F) (List.replicate (width * nodes) (0 : K)) (by
    intro op hop
    obtain ⟨x, hx, hop⟩ := List.mem_flatMap.1 hop
    obtain ⟨d, hd, rfl⟩ := List.mem_map.1 hop
    have : width * (x.node + 1) ≤ width * nodes := Nat.mul_le_mul_left _ (hin x hx)
    rw [Nat.mul_succ] at this
    rw [List.length_replicate]
    have := List.mem_range.1 hd
    dsimp only
    omega)
  rw [List.length_replicate] at e2 e3
  refine ⟨w, he.trans e1, e2, ?_⟩
  intro n hn d hd
  have hlt : width * n + d < width * nodes := by
    have : width * (n + 1) ≤ width * nodes := Nat.mul_le_mul_left _ hn
    rw [Nat.mul_succ] at this
    omega
  have hz : (List.replicate (width * nodes) (0 : K)).getD (width * n + d) 0 = 0 := by
    rw [List.getD_eq_getElem?_getD, List.getElem?_replicate, if_pos hlt]
    rfl
  rw [e3 _ hlt, hz, zero_add, Verif.Feti.total_flatMap]
  congr 1
  unfold valuesAt
  clear e1 e2 e3 he hin
  induction visits with
  | nil => simp
  | cons x visits ih =>
    rw [List.map_cons, List.sum_cons, ih, total_row width x.node (fun d => m.getD x.node 0 * x.value d) hd]
    by_cases hx : x.node = n
    · rw [if_pos hx, List.filter_cons_of_pos (by simpa using hx), List.map_cons, List.sum_cons, mul_add, hx]
    · rw [if_neg hx, List.filter_cons_of_neg (by simpa using hx), zero_add]

/-- The values of a result in a node, one for every element of all processes with the node. -/
def allValues (P : Nat) (G : Nat → List Nat) (visits : Nat → List (Visit K)) (g d : Nat) : List K := (hosts P G g).flatMap fun q => valuesAt (visits q) ((G q).idxOf g) d

/-- With several processes every node gets the arithmetic mean of the values in all elements with the node, whichever process they belong to, if the additions of a process are made one after another. -/
theorem C102_average_partial {P : Nat} {G nb : Nat → List Nat} (M : Mesh P G nb) (width : Nat) (elements : Nat → List (List Nat)) (h : ∀ q < P, ∀ e ∈ elements q, ∀ n ∈ e, n < (G q).length)
    (visits : Nat → List (Visit K)) (hv : ∀ q < P, ((visits q).map (·.node)).Perm (elements q).flatten) :
    ∃ c m a w : Nat → List K, ∀ p < P, counts (G p).length (elements p) = some (c p) ∧ inverse nb (fun q => (G q).map (hosts P G)) c p = some (m p) ∧
      averages width (G p).length (m p) (visits p) = some (a p) ∧ synchronize width nb (fun q => (G q).map (hosts P G)) a p = some (w p) ∧ (w p).length = (G p).length * width ∧
      ∀ n (hn : n < (G p).length), ∀ d < width, (w p)[n * width + d]? = some (mean (allValues P G visits (G p)[n] d)) := by
  classical
  -- the numbers of elements
  have hc : ∀ q, ∃ c : List K, q < P → counts (G q).length (elements q) = some c ∧ c.length = (G q).length ∧ ∀ n < (G q).length, c[n]? = some (((elements q).flatten.count n : Nat) : K) := by
    intro q
    by_cases hq : q < P
    · obtain ⟨c, hc⟩ := counts_spec (K := K) (G q).length (elements q) (h q hq)
      exact ⟨c, fun _ => hc⟩
    · exact ⟨[], fun hq' => absurd hq' hq⟩
  choose c hc using hc
  have cnt : ∀ q < P, ∀ n < (G q).length, ∀ d, ((elements q).flatten.count n : Nat) = (valuesAt (visits q) n d).length := by
    intro q hq n _ d
    rw [← (hv q hq).count_eq]
    unfold valuesAt
    rw [List.length_map, List.count, List.countP_map, List.countP_eq_length_filter]
    congr 2
  -- the multiplicities
  have hm : ∀ p, ∃ m : List K, p < P → inverse nb (fun q => (G q).map (hosts P G)) c p = some m ∧ m.length = (G p).length ∧
      ∀ n (hn : n < (G p).length), ∀ d, m.getD n 0 = 1 / (((allValues P G visits (G p)[n] d).length : Nat) : K) := by
    intro p
    by_cases hp : p < P
    · obtain ⟨w, w1, w2, w3⟩ := C102_sum M 1 c (fun q hq => by rw [(hc q hq).2.1, Nat.mul_one]) hp
      refine ⟨w.map fun x => 1 / x, fun _ => ⟨?_, by rw [List.length_map, w2, (hc p hp).2.1], ?_⟩⟩
      · unfold inverse
        rw [w1]
        rfl
      · intro n hn d
        have := w3 n hn 0 (by decide)
        rw [Nat.mul_one, Nat.add_zero] at this
        rw [List.getD_eq_getElem?_getD, List.getElem?_map, this]
        show 1 / _ = _
        congr 1
        unfold allValues
        rw [List.length_flatMap, ← List.sum_toFinset _ (hosts_nodup P G _), Nat.cast_sum]
        apply Finset.sum_congr
        · ext q
          rw [List.mem_toFinset, mem_hosts, Finset.mem_filter, Finset.mem_range]
        · intro q hq
          obtain ⟨q1, q2⟩ := mem_hosts.1 (List.mem_toFinset.1 hq)
          have hi := List.idxOf_lt_length_of_mem q2
          rw [Nat.mul_one, Nat.add_zero, List.getD_eq_getElem?_getD, (hc q q1).2.2 _ hi, cnt q q1 _ hi d]
          rfl
    · exact ⟨[], fun hp' => absurd hp' hp⟩
  choose m hm using hm
  -- the averages
  have ha : ∀ p, ∃ a : List K, p < P → averages width (G p).length (m p) (visits p) = some a ∧ a.length = width * (G p).length ∧
      ∀ n < (G p).length, ∀ d < width, a[width * n + d]? = some ((m p).getD n 0 * (valuesAt (visits p) n d).sum) := by
    intro p
    by_cases hp : p < P
    · obtain ⟨a, ha⟩ := averages_spec width (G p).length (m p) (hm p hp).2.1 (visits p) (by
        intro x hx
        obtain ⟨e, he, hn⟩ := List.mem_flatten.1 ((hv p hp).mem_iff.1 (List.mem_map_of_mem hx))
        exact h p hp e he _ hn)
      exact ⟨a, fun _ => ha⟩
    · exact ⟨[], fun hp' => absurd hp' hp⟩
  choose a ha using ha
  -- the sums of the averages
  have hw : ∀ p, ∃ w : List K, p < P → synchronize width nb (fun q => (G q).map (hosts P G)) a p = some w ∧ w.length = (G p).length * width ∧
      ∀ n (hn : n < (G p).length), ∀ d < width, w[n * width + d]? = some (mean (allValues P G visits (G p)[n] d)) := by
    intro p
    by_cases hp : p < P
    · obtain ⟨w, w1, w2, w3⟩ := C102_sum M width a (fun q hq => by rw [(ha q hq).2.1, Nat.mul_comm]) hp
      refine ⟨w, fun _ => ⟨w1, by rw [w2, (ha p hp).2.1, Nat.mul_comm], ?_⟩⟩
      intro n hn d hd
      rw [w3 n hn d hd]
      congr 1
      unfold mean
      rw [div_eq_mul_one_div, mul_comm]
      have hs : (allValues P G visits (G p)[n] d).sum = ∑ q ∈ (Finset.range P).filter (fun q => (G p)[n] ∈ G q), (valuesAt (visits q) ((G q).idxOf (G p)[n]) d).sum := by
        unfold allValues
        rw [List.flatMap_def, List.sum_flatten, List.map_map, ← List.sum_toFinset _ (hosts_nodup P G _)]
        apply Finset.sum_congr
        · ext q
          rw [List.mem_toFinset, mem_hosts, Finset.mem_filter, Finset.mem_range]
        · intro q _
          rfl
      rw [hs, Finset.mul_sum]
      apply Finset.sum_congr rfl
      intro q hq
      obtain ⟨q1, q2⟩ := Finset.mem_filter.1 hq
      have q1 := Finset.mem_range.1 q1
      have hi := List.idxOf_lt_length_of_mem q2
      have hmq := (hm q q1).2.2 _ hi d
      rw [List.getElem_idxOf] at hmq
      rw [Nat.mul_comm, List.getD_eq_getElem?_getD, (ha q q1).2.2 _ hi d hd, ← hmq]
      rfl
    · exact ⟨[], fun hp' => absurd hp' hp⟩
  choose w hw using hw
  exact ⟨c, m, a, w, fun p hp => ⟨(hc p hp).1, (hm p hp).1, (ha p hp).1, hw p hp⟩⟩

end

/-! ### Cases -/

/-- Three processes; the node 5 belongs to all of them, the nodes 3 and 7 to two. -/
def exG (p : Nat) : List Nat := if p = 0 then [1, 3, 5] else if p = 1 then [3, 4, 5, 7] else if p = 2 then [5, 7, 9] else []

/-- Their neighbours. -/
def exNb (p : Nat) : List Nat := if p = 0 then [1, 2] else if p = 1 then [0, 2] else if p = 2 then [0, 1] else []

theorem exMesh : Mesh 3 exG exNb where
  nodup := by decide
  order := by decide
  sorted := by decide
  inside := by decide
  symm := by decide
  cover := by
    have all : ∀ p < 3, ∀ q < 3, q ≠ p → q ∈ exNb p := by decide
    exact fun p hp q hq hne _ _ _ => all p hp q hq hne

/-- Every node of the three processes with its own value: sums at the shared nodes. -/
example : ∃ w, synchronize 2 exNb (fun q => (exG q).map (hosts 3 exG)) (fun q => (List.range ((exG q).length * 2)).map fun i => ((100 * q + i : Nat) : Int)) 1 = some w ∧ w[2 * 2 + 1]? = some ((5 : Int) + 105 + 201) := by
  obtain ⟨w, e1, _, e3⟩ := C102_sum exMesh 2 (fun q => (List.range ((exG q).length * 2)).map fun i => ((100 * q + i : Nat) : Int)) (by
    intro q _
    rw [List.length_map, List.length_range]) (show 1 < 3 by decide)
  exact ⟨w, e1, (e3 2 (by decide) 1 (by decide)).trans (by decide)⟩

/-- The elements of the three processes, and the values of a result: 2, 4, 8 and 10 at the node 5. -/
def exElements (p : Nat) : List (List Nat) := if p = 0 then [[0, 1, 2]] else if p = 1 then [[0, 1, 2], [1, 3, 2]] else if p = 2 then [[0, 1, 2]] else []

/-- The evaluations in the nodes. -/
def exVisits (p : Nat) : List (Verif.Stress.Visit ℚ) :=
  if p = 0 then [⟨0, fun _ => 1⟩, ⟨1, fun _ => 1⟩, ⟨2, fun _ => 2⟩]
  else if p = 1 then [⟨1, fun _ => 1⟩, ⟨3, fun _ => 5⟩, ⟨2, fun _ => 4⟩, ⟨0, fun _ => 3⟩, ⟨1, fun _ => 0⟩, ⟨2, fun _ => 8⟩]
  else if p = 2 then [⟨0, fun _ => 10⟩, ⟨1, fun _ => 7⟩, ⟨2, fun _ => 0⟩] else []

example : ∃ a w : Nat → List ℚ, synchronize 1 exNb (fun q => (exG q).map (hosts 3 exG)) a 0 = some (w 0) ∧ (w 0)[2 * 1 + 0]? = some 6 := by
  obtain ⟨c, m, a, w, h⟩ := C102_average_partial (K := ℚ) exMesh 1 exElements (by decide) exVisits (by decide)
  obtain ⟨-, -, -, h4, -, h6⟩ := h 0 (by decide)
  refine ⟨a, w, h4, (h6 2 (by decide) 0 (by decide)).trans ?_⟩
  have : allValues 3 exG exVisits (exG 0)[2] 0 = [2, 4, 8, 10] := by decide
  rw [this]
  norm_num [Verif.Stress.mean]

/-- The order of the nodes is needed: with the common nodes in different orders the values of different nodes are added. -/
theorem C102_order_needed : ∃ (G nb : Nat → List Nat) (data : Nat → List Int), (∀ p < 2, (G p).Nodup ∧ (data p).length = (G p).length) ∧
    synchronize 1 nb (fun q => (G q).map (hosts 2 G)) data 0 = some [(data 0).getD 0 0, 4] ∧ (data 0).getD 0 0 ≠ ∑ q ∈ (Finset.range 2).filter (fun q => 1 ∈ G q), (data q).getD ((G q).idxOf 1) 0 := by
  refine ⟨fun p => if p = 0 then [1, 2] else [2, 1], fun p => if p = 0 then [1] else [0], fun p => if p = 0 then [3, 0] else [0, 4], by decide, ?_, by decide⟩
  decide

end Verif.Sync
