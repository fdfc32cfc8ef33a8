import Verif.Proof.OrthoPcpg
import Verif.Prop.FetiSolve
/-! Lemmas about the orthogonalized conjugate projected gradients on distributed data (C70). -/
namespace Verif.Feti

open Verif.Csx Verif.Dual Verif.Comm Verif.Mpi Finset

variable {K : Type} [Field K]

/-! ### Stored vectors -/

/-- The matrix holds the rows. -/
structure Holding (m : DualMatrix K) (N : Nat) (rows : List (List K)) : Prop where
  ncols : m.ncols = N
  nrows : m.nrows = rows.length
  cap : m.nrows ≤ m.alloc
  pos : 0 < m.alloc
  mem : m.alloc * N ≤ m.vals.length
  len : ∀ r ∈ rows, r.length = N
  vals : ∃ rest, m.vals = rows.flatten ++ rest

theorem flatten_length {N : Nat} (rows : List (List K)) (h : ∀ r ∈ rows, r.length = N) : rows.flatten.length = rows.length * N := by
  induction rows with
  | nil => simp
  | cons r rows ih =>
    rw [List.flatten_cons, List.length_append, h r (List.mem_cons_self ..), ih fun r hr => h r (List.mem_cons_of_mem _ hr), List.length_cons, Nat.succ_mul, Nat.add_comm]

theorem flatten_get {N : Nat} (rows : List (List K)) (rest : List K) (h : ∀ r ∈ rows, r.length = N) (i k : Nat) (hi : i < rows.length) (hk : k < N) :
    (rows.flatten ++ rest)[i * N + k]? = (rows[i])[k]? := by
  induction rows generalizing i with
  | nil => simp at hi
  | cons r rows ih =>
    have hr := h r (List.mem_cons_self ..)
    cases i with
    | zero =>
      rw [Nat.zero_mul, Nat.zero_add, List.flatten_cons, List.append_assoc, List.getElem?_append_left (by omega)]
      rfl
    | succ i =>
      rw [List.flatten_cons, List.append_assoc, Nat.succ_mul, List.getElem?_append_right (by omega)]
      have e : i * N + N + k - r.length = i * N + k := by omega
      rw [e, ih (fun r hr => h r (List.mem_cons_of_mem _ hr)) i (by simpa using hi)]
      rfl

theorem holding_resize (fresh : Nat → K) (m : DualMatrix K) (N : Nat) : Holding (m.resize fresh N) N [] := by
  refine ⟨rfl, rfl, Nat.zero_le _, by show 0 < 32; omega, ?_, fun r hr => absurd hr List.not_mem_nil, ⟨_, rfl⟩⟩
  show 32 * N ≤ (if m.vals.length < 32 * N then _ else m.vals).length
  split
  · simp
  · omega

theorem holding_next {m : DualMatrix K} {N : Nat} {rows : List (List K)} (h : Holding m N rows) (fresh : Nat → K) :
    ∃ m' row, m.next fresh = some (m', N * rows.length) ∧ Holding m' N (rows ++ [row]) := by
  obtain ⟨rest, hv⟩ := h.vals
  have hlen := flatten_length rows h.len
  have hvl : m.vals.length = rows.length * N + rest.length := by rw [hv, List.length_append, hlen]
  have hn := h.nrows
  have hmem := h.mem
  unfold DualMatrix.next
  by_cases hc : m.nrows = m.alloc
  · have h1 : memcpyFrom m.vals 0 (m.nrows * m.ncols) = some rows.flatten := by
      rw [h.ncols, hn, ← hlen, hv]
      exact memcpyFrom_append [] rows.flatten rest
    obtain ⟨new, hnew⟩ : ∃ new, new = (List.range (2 * m.nrows * m.ncols)).map fresh := ⟨_, rfl⟩
    have hnl : new.length = 2 * (rows.length * N) := by rw [hnew, List.length_map, List.length_range, h.ncols, hn, Nat.mul_assoc]
    have hN : N ≤ rows.length * N := by
      have : 0 < rows.length := by rw [← hn, hc]; exact h.pos
      exact Nat.le_mul_of_pos_left N this
    have h2 : memcpyTo new 0 rows.flatten = some (rows.flatten ++ new.drop rows.flatten.length) := by
      unfold memcpyTo
      rw [if_pos (by rw [hlen, hnl]; omega)]
      simp
    have hdl : (new.drop rows.flatten.length).length = rows.length * N := by rw [List.length_drop, hlen, hnl]; omega
    rw [if_pos hc, h1, ← hnew]
    simp only [Option.bind_eq_bind, Option.bind_some]
    rw [h2]
    simp only [Option.bind_some]
    rw [h.ncols, hn]
    refine ⟨_, (new.drop rows.flatten.length).take N, rfl, rfl, ?_, ?_, ?_, ?_, ?_, ?_⟩
    · rw [List.length_append]; rfl
    · show rows.length + 1 ≤ 2 * rows.length
      have := h.pos
      omega
    · show 0 < 2 * rows.length
      have := h.pos
      omega
    · show 2 * rows.length * N ≤ _
      rw [List.length_append, hdl, hlen, Nat.mul_assoc]
      omega
    · intro r hr
      rcases List.mem_append.1 hr with hr | hr
      · exact h.len r hr
      · rw [List.mem_singleton.1 hr, List.length_take, hdl]
        omega
    · refine ⟨(new.drop rows.flatten.length).drop N, ?_⟩
      rw [List.flatten_append, List.flatten_singleton, List.append_assoc, List.take_append_drop]
  · have hlt : rows.length + 1 ≤ m.alloc := by
      have := h.cap
      omega
    have hrest : N ≤ rest.length := by
      have : (rows.length + 1) * N ≤ m.alloc * N := Nat.mul_le_mul_right N hlt
      rw [Nat.succ_mul] at this
      omega
    rw [if_neg hc]
    simp only [Option.bind_eq_bind, Option.bind_some]
    rw [h.ncols, hn]
    refine ⟨_, rest.take N, rfl, ?_, ?_, ?_, h.pos, hmem, ?_, ?_⟩
    · rfl
    · rw [List.length_append]; rfl
    · exact hlt
    · intro r hr
      rcases List.mem_append.1 hr with hr | hr
      · exact h.len r hr
      · rw [List.mem_singleton.1 hr, List.length_take]
        omega
    · refine ⟨rest.drop N, ?_⟩
      rw [List.flatten_append, List.flatten_singleton, List.append_assoc, List.take_append_drop]
      exact hv

theorem holding_row {m : DualMatrix K} {N : Nat} {rows : List (List K)} {row : List K} (h : Holding m N (rows ++ [row])) : m.row (N * rows.length) = some row := by
  obtain ⟨rest, hv⟩ := h.vals
  have hlen := flatten_length rows fun r hr => h.len r (List.mem_append_left _ hr)
  have hrl := h.len row (List.mem_append_right _ (List.mem_singleton.2 rfl))
  unfold DualMatrix.row
  rw [hv, List.flatten_append, List.flatten_singleton, h.ncols, Nat.mul_comm, ← hlen, ← hrl]
  exact memcpyFrom_append _ _ _

theorem holding_setRow {m : DualMatrix K} {N : Nat} {rows : List (List K)} {row : List K} (h : Holding m N (rows ++ [row])) (v : List K) (hvl : v.length = N) :
    ∃ m', m.setRow (N * rows.length) v = some m' ∧ Holding m' N (rows ++ [v]) := by
  obtain ⟨rest, hv⟩ := h.vals
  have hlen := flatten_length rows fun r hr => h.len r (List.mem_append_left _ hr)
  have hrl := h.len row (List.mem_append_right _ (List.mem_singleton.2 rfl))
  unfold DualMatrix.setRow
  have hw : memcpyTo m.vals (N * rows.length) v = some (rows.flatten ++ v ++ rest) := by
    rw [hv, List.flatten_append, List.flatten_singleton, Nat.mul_comm, ← hlen]
    exact memcpyTo_append _ _ _ _ (by rw [hrl, hvl])
  rw [hw]
  refine ⟨_, rfl, h.ncols, ?_, h.cap, h.pos, ?_, ?_, rest, ?_⟩
  · show m.nrows = _
    rw [h.nrows, List.length_append, List.length_append]
    rfl
  · show m.alloc * N ≤ _
    have := h.mem
    rw [hv, List.flatten_append, List.flatten_singleton] at this
    simp only [List.length_append] at this ⊢
    omega
  · intro r hr
    rcases List.mem_append.1 hr with hr | hr
    · exact h.len r (List.mem_append_left _ hr)
    · rw [List.mem_singleton.1 hr]
      exact hvl
  · rw [List.flatten_append, List.flatten_singleton]

theorem wr_loop (n : Nat) (y : List K) (hy : y.length = n) (body : Nat → List K → Option (List K)) (val : Nat → K) (h : ∀ i, i < n → ∀ s : List K, s.length = n → body i s = wr s i (val i)) :
    forLoop 0 n y body = some (mk n val) := by
  obtain ⟨s, e, h1, h2⟩ := forLoop_inv (Nat.zero_le n) y body (fun i s => s.length = n ∧ ∀ k, k < i → s[k]? = some (val k)) ⟨hy, fun k hk => absurd hk (Nat.not_lt_zero k)⟩ (by
    intro i _ hi s ⟨h1, h2⟩
    refine ⟨s.set i (val i), by rw [h i hi s h1, wr_eq_some (by omega)], by rw [List.length_set, h1], ?_⟩
    intro k hk
    by_cases hki : k = i
    · subst hki
      rw [List.getElem?_set_self (by omega)]
    · rw [List.getElem?_set_ne (fun h => hki h.symm)]
      exact h2 k (by omega))
  rw [e]
  congr 1
  apply List.ext_getElem?
  intro k
  by_cases hk : k < n
  · rw [h2 k hk, mk_get _ hk]
  · rw [List.getElem?_eq_none (by omega), List.getElem?_eq_none (by rw [mk_length]; omega)]

/-- Products of the rows. -/
theorem gemv_spec {N : Nat} (rows : List (List K)) (rest : List K) (h : ∀ r ∈ rows, r.length = N) (lo cols : Nat) (hc : 0 < cols) (hr : lo + cols ≤ N) (x y : List K) (hy : y.length = rows.length)
    (d : Nat → K) (hd : ∀ i, (hi : i < rows.length) → localDot [(lo, lo + cols)] rows[i] x = some (d i)) :
    DualMatrix.gemv (rows.flatten ++ rest) lo rows.length cols N x lo y = some (mk rows.length d) := by
  unfold DualMatrix.gemv
  by_cases h0 : rows.length = 0
  · rw [if_pos (Or.inl h0)]
    rw [h0] at hy ⊢
    rw [List.length_eq_zero_iff.1 hy]
    rfl
  · rw [if_neg (by omega)]
    apply wr_loop _ _ hy
    intro i hi s _
    have e : (forLoop 0 cols (0 : K) fun k s => do
        let a ← (rows.flatten ++ rest)[lo + i * N + k]?
        let b ← x[lo + k]?
        some (s + a * b)) = some (d i) := by
      have hdi := hd i hi
      simp only [localDot, List.foldlM_cons, List.foldlM_nil, Option.bind_eq_bind] at hdi
      obtain ⟨s', h1, h2⟩ := Option.bind_eq_some_iff.1 hdi
      obtain ⟨s'', h3, h4⟩ := Option.bind_eq_some_iff.1 h1
      rw [zero_add] at h4
      cases h4
      cases h2
      rw [← h3, Nat.add_sub_cancel_left]
      apply forLoop_congr
      intro k s _ hk
      have hg := flatten_get rows rest h i (lo + k) hi (by omega)
      rw [show i * N + (lo + k) = lo + i * N + k by omega] at hg
      rw [hg]
      rfl
    rw [e]
    rfl

/-- The combination of the rows. -/
theorem gemvT_spec {N : Nat} (rows : List (List K)) (rest : List K) (h : ∀ r ∈ rows, r.length = N) (hr : 0 < rows.length) (c : Nat → K) (y : List K) (hy : y.length = N) :
    DualMatrix.gemvT (rows.flatten ++ rest) rows.length N N (mk rows.length c) y = some (mk N fun k => ∑ r ∈ range rows.length, (rows.getD r []).getD k 0 * c r) := by
  unfold DualMatrix.gemvT
  by_cases h0 : N = 0
  · rw [if_pos (Or.inr h0)]
    rw [h0] at hy ⊢
    rw [List.length_eq_zero_iff.1 hy]
    rfl
  · rw [if_neg (by omega)]
    apply wr_loop _ _ hy
    intro k hk s _
    have e := sum_loop rows.length (fun r => (rows.getD r []).getD k 0 * c r) (fun r s => do
        let a ← (rows.flatten ++ rest)[r * N + k]?
        let b ← (mk rows.length c)[r]?
        some (s + a * b)) (by
      intro r hr s
      have hl := h rows[r] (List.getElem_mem hr)
      rw [flatten_get rows rest h r k hr hk, mk_get _ hr, List.getElem?_eq_getElem (by omega)]
      simp [List.getElem?_eq_getElem hr, List.getElem?_eq_getElem (show k < rows[r].length by omega)])
    rw [e]
    rfl

theorem divideAll_spec [DecidableEq K] (pFp : List K) (h : ∀ q ∈ pFp, q ≠ 0) (c : Nat → K) : divideAll (mk pFp.length c) pFp = some (mk pFp.length fun i => c i / (-pFp.getD i 0)) := by
  unfold divideAll
  rw [mk_length]
  refine (forLoop_congr _ _ _ ?_).trans (forDomains_spec pFp.length c (fun i => c i / (-pFp.getD i 0)) (fun i a => divide a (-pFp.getD i 0)) ?_)
  · intro i s _ hi
    simp [List.getElem?_eq_getElem hi]
  · intro i hi
    have : pFp.getD i 0 ≠ 0 := by
      rw [List.getD_eq_getElem?_getD, List.getElem?_eq_getElem hi]
      exact h _ (List.getElem_mem hi)
    unfold divide
    rw [if_neg (neg_ne_zero.2 this)]

theorem applyT_spec {m : DualMatrix K} {N : Nat} {rows : List (List K)} {row : List K} (h : Holding m N (rows ++ [row])) (hr : 0 < rows.length) (c : Nat → K) :
    ∃ m', m.applyT (mk rows.length c) (N * rows.length) = some m' ∧ Holding m' N (rows ++ [mk N fun k => ∑ r ∈ range rows.length, (rows.getD r []).getD k 0 * c r]) := by
  obtain ⟨m', h1, h2⟩ := holding_setRow h (mk N fun k => ∑ r ∈ range rows.length, (rows.getD r []).getD k 0 * c r) (mk_length _ _)
  refine ⟨m', ?_, h2⟩
  obtain ⟨rest, hv⟩ := h.vals
  unfold DualMatrix.applyT
  rw [holding_row h]
  simp only [Option.bind_eq_bind, Option.bind_some]
  rw [hv, mk_length, h.ncols, List.flatten_append, List.append_assoc, gemvT_spec rows _ (fun r hr => h.len r (List.mem_append_left _ hr)) hr c row (h.len row (List.mem_append_right _ (List.mem_singleton.2 rfl)))]
  exact h1

theorem applyLocal_spec {m : DualMatrix K} {N : Nat} {rows : List (List K)} (h : Holding m N rows) (lo cols : Nat) (hc : 0 < cols) (hr : lo + cols ≤ N) (x y : List K) (hy : y.length = rows.length)
    (d : Nat → K) (hd : ∀ i, (hi : i < rows.length) → localDot [(lo, lo + cols)] rows[i] x = some (d i)) :
    m.applyLocal [(lo, lo + cols)] x y = some (mk rows.length d) := by
  obtain ⟨rest, hv⟩ := h.vals
  unfold DualMatrix.applyLocal
  simp only [List.foldlM_cons, List.foldlM_nil]
  rw [if_neg (by omega), Nat.add_sub_cancel_left, h.nrows, h.ncols, hv, gemv_spec rows rest h.len lo cols hc hr x y hy d hd]
  rfl

/-! ### The processes -/

theorem completes_orFail {M A B : Type} {np : Nat} {o : Nat → Option A} (a : Nat → A) {k : Nat → A → Prog M (Option B)} {b : Cfg M (Option B)} (h : ∀ p, p < np → o p = some (a p))
    (hc : Completes (world 0 np fun p => k p (a p)) b) : Completes (world 0 np fun p => orFail (o p) (k p)) b := by
  rw [world_orFail o a k h]
  exact hc

/-- The contract of `MPI_Allreduce` with `MPI_SUM` for vectors. -/
def ReducesAll (np : Nat) (red : Nat → List K → Prog (List K) (Option (List K))) : Prop :=
  ∀ (n : Nat) (v : Nat → Nat → K), Completes (world 0 np fun p => red p (mk n (v p))) (finished 0 np fun _ => some (mk n fun i => ∑ p ∈ range np, v p i))

variable {L : Type} [DecidableEq L]
variable {np : Nat} {first : Nat → Nat} {nb : Nat → List Nat} {lam : Nat → List L} {doms : L → List Nat} {t : Nat} {cmap nmap nsize : Nat → List Nat} {dim kdim koff : Nat → Nat}
  {entry : L → Nat → Nat → K} {solve : Nat → List K → List K} {Rm : Nat → Nat → Nat → K} {g : Nat → L → K} {W : Nat → Nat → K} {f : Nat → Nat → K} {c : L → K} {S : (L → K) → L → K}
  {A : Nat → Process K}

local notation "OK" => ScratchOk np first lam nsize dim koff
local notation "ops" => dualOps (first np) (allMults np lam) dim kdim koff entry solve Rm g W f c S

/-- What the process holds between the steps. -/
structure OHolds (np : Nat) (lam : Nat → List L) (n : Pcpg.OState K (allMults np lam → K)) (q : Nat) (v : Vectors K) (O : OrthoData K) : Prop where
  x : v.x = share np lam n.x q
  r : v.r = share np lam n.r q
  w : v.w.length = (lam q).length
  y : v.y.length = (lam q).length
  z : v.z.length = (lam q).length
  pi : Holding O.pi (lam q).length (n.ps.map (fun a => share np lam a.1 q) ++ [share np lam n.p q])
  Fpi : Holding O.Fpi (lam q).length (n.ps.map fun a => share np lam a.2.1 q)
  yFp : O.yFp.length = n.ps.length
  pFp : O.pFp = n.ps.map fun a => a.2.2
  off : O.off = (lam q).length * n.ps.length

theorem obegin_spec (h : System np first nb lam doms t cmap nmap nsize dim kdim koff entry solve Rm g W f c S A) (fresh : Nat → Nat → K) (s : Nat → Scratch K) (O : Nat → OrthoData K) (l : Nat → List K)
    (v : Nat → Vectors K) (hok : ∀ p, p < np → OK p (s p) ∧ (l p).length = (lam p).length ∧ VectorsOk (lam p).length (v p))
    (hO : ∀ p, p < np → Holding (O p).pi (lam p).length [] ∧ Holding (O p).Fpi (lam p).length [] ∧ (O p).yFp = [] ∧ (O p).pFp = []) :
    ∃ (s' : Nat → Scratch K) (v' : Nat → Vectors K) (O' : Nat → OrthoData K), (∀ p, p < np → OK p (s' p) ∧ OHolds np lam (Pcpg.ostart ops) p (v' p) (O' p)) ∧
      Completes (world 0 np fun p => (A p).obegin (fresh p) (s p) (O p) (share np lam (ops).d p) (mk (koff (first np)) fun k => -timesR (first np) dim kdim koff Rm f k) (l p) (v p))
        (finished 0 np fun p => some (((v' p, (Pcpg.ostart ops).yw), O' p), s' p)) := by
  have hnx : ∀ p, ∃ m row, p < np → (O p).pi.next (fresh p) = some (m, 0) ∧ Holding m (lam p).length [row] := by
    intro p
    by_cases hp : p < np
    · obtain ⟨m, row, h1, h2⟩ := holding_next (hO p hp).1 (fresh p)
      exact ⟨m, row, fun _ => ⟨h1, h2⟩⟩
    · exact ⟨(O p).pi, [], fun h => absurd h hp⟩
  choose m row hm using hnx
  obtain ⟨s', v', h1, e1⟩ := begin_spec h s l (fun p => { v p with p := row p }) (fun p hp => by
    obtain ⟨a, b, d⟩ := hok p hp
    refine ⟨a, b, d.x, d.r, d.w, d.y, d.z, ?_, d.Fp⟩
    exact (hm p hp).2.len (row p) (List.mem_singleton.2 rfl))
  have hst : ∀ p, ∃ m', p < np → (m p).setRow 0 (v' p).p = some m' ∧ Holding m' (lam p).length [(v' p).p] := by
    intro p
    by_cases hp : p < np
    · obtain ⟨m', h2, h3⟩ := holding_setRow (rows := []) (hm p hp).2 (v' p).p (by rw [(h1 p hp).2.p, share_length])
      exact ⟨m', fun _ => ⟨h2, h3⟩⟩
    · exact ⟨m p, fun h => absurd h hp⟩
  choose m' hm' using hst
  refine ⟨s', v', fun p => { O p with pi := m' p, off := 0 }, ?_, ?_⟩
  · intro p hp
    obtain ⟨ok, hv⟩ := h1 p hp
    obtain ⟨_, o2, o3, o4⟩ := hO p hp
    refine ⟨ok, hv.x, hv.r, ?_, hv.y, hv.z, ?_, o2, ?_, o4, rfl⟩
    · rw [hv.w, share_length]
    · have := (hm' p hp).2
      rw [hv.p] at this
      exact this
    · show (O p).yFp.length = 0
      rw [o3]
      rfl
  · unfold Process.obegin
    refine completes_orFail (fun p => (m p, 0)) (fun p hp => (hm p hp).1) (completes_orFail row (fun p hp => holding_row (rows := []) (hm p hp).2) (world_andThen _ e1 ?_))
    exact completes_orFail m' (fun p hp => (hm' p hp).1) (world_ret _ _ _)

/-- Every process owns multipliers, and these are in one run. -/
def OneInterval (np : Nat) (first : Nat → Nat) (lam : Nat → List L) (doms : L → List Nat) (A : Nat → Process K) : Prop :=
  ∀ p, p < np → ∃ lo cols, 0 < cols ∧ Intervals first p (lam p) doms [(lo, cols)] ∧ (A p).projector.li = [(lo, lo + cols)]

theorem interval_le {first : Nat → Nat} {p : Nat} {l : List L} {doms : L → List Nat} {lo cols : Nat} (h : Intervals first p l doms [(lo, cols)]) : lo + cols ≤ l.length := by
  obtain ⟨parts, h1, h2, _⟩ := h
  match parts, h1 with
  | [x], h1 =>
    simp only [List.map_cons, List.map_nil, List.cons.injEq, Prod.mk.injEq, and_true] at h1
    rw [h2, h1.1, h1.2]
    simp
  | [], h1 => cases h1
  | _ :: _ :: _, h1 => cases h1

/-- Products with the stored vectors. -/
theorem products_spec (h : System np first nb lam doms t cmap nmap nsize dim kdim koff entry solve Rm g W f c S A) (hone : OneInterval np first lam doms A) {red : Nat → List K → Prog (List K) (Option (List K))}
    (hred : ReducesAll np red) (qs : List (allMults np lam → K)) (y : allMults np lam → K) (m : Nat → DualMatrix K) (z : Nat → List K)
    (hm : ∀ p, p < np → Holding (m p) (lam p).length (qs.map fun a => share np lam a p) ∧ (z p).length = qs.length) :
    ∃ d : Nat → Nat → K, (∀ p, p < np → (m p).applyLocal (A p).projector.li (share np lam y p) (z p) = some (mk qs.length (d p))) ∧
      Completes (world 0 np fun p => red p (mk qs.length (d p))) (finished 0 np fun _ => some (mk qs.length fun i => (ops).dot y (qs.getD i 0))) := by
  have hd : ∀ a : allMults np lam → K, ∃ d : Nat → K, (∀ p, p < np → localDot (A p).projector.li (share np lam a p) (share np lam y p) = some (d p)) ∧ ∑ p ∈ range np, d p = (ops).dot y a := by
    intro a
    have hiv : ∀ p, ∃ iv, p < np → Intervals first p (lam p) doms iv ∧ (A p).projector.li = localIntervals iv := by
      intro p
      by_cases hp : p < np
      · obtain ⟨iv, h1⟩ := h.projector.intervals p hp
        exact ⟨iv, fun _ => h1⟩
      · exact ⟨[], fun hp' => absurd hp' hp⟩
    choose iv hiv using hiv
    obtain ⟨d, h1, h2⟩ := C61_dot h.shared iv (fun p hp => (hiv p hp).1) (extend _ a) (extend _ y)
    refine ⟨d, fun p hp => by rw [(hiv p hp).2]; exact h1 p hp, ?_⟩
    rw [h2]
    exact sum_congr rfl fun l _ => mul_comm _ _
  choose d hd1 hd2 using hd
  refine ⟨fun p i => d (qs.getD i 0) p, ?_, ?_⟩
  · intro p hp
    obtain ⟨lo, cols, hc, hi, hli⟩ := hone p hp
    have hlen : (qs.map fun a => share np lam a p).length = qs.length := List.length_map _
    have := applyLocal_spec (hm p hp).1 lo cols hc (interval_le hi) (share np lam y p) (z p) (by rw [hlen]; exact (hm p hp).2) (fun i => d (qs.getD i 0) p) (by
      intro i hi'
      have hi'' : i < qs.length := by rw [← hlen]; exact hi'
      rw [List.getElem_map, ← hli, List.getD_eq_getElem?_getD, List.getElem?_eq_getElem hi'']
      exact hd1 _ p hp)
    rw [hlen] at this
    rw [hli]
    exact this
  · have := hred qs.length fun p i => d (qs.getD i 0) p
    rw [mk_congr fun i _ => (hd2 (qs.getD i 0)).symm]
    exact this

/-- The combination of the stored vectors. -/
theorem share_sum (qs : List (allMults np lam → K)) (a : Nat → K) (p : Nat) :
    (mk (lam p).length fun k => ∑ r ∈ range (qs.map fun q => share np lam q p).length, ((qs.map fun q => share np lam q p).getD r []).getD k 0 * a r) =
      share np lam ((List.range qs.length).map fun r => a r • qs.getD r 0).sum p := by
  apply List.ext_getElem?
  intro k
  by_cases hk : k < (lam p).length
  · rw [mk_get _ hk]
    unfold share
    rw [List.getElem?_map, List.getElem?_eq_getElem hk, Option.map_some, List.length_map]
    congr 1
    obtain ⟨n, hn⟩ : ∃ n, n = qs.length := ⟨_, rfl⟩
    have hle : n ≤ qs.length := by omega
    rw [← hn]
    clear hn
    induction n with
    | zero =>
      simp only [range_zero, sum_empty, List.range_zero, List.map_nil, List.sum_nil]
      unfold extend
      split <;> rfl
    | succ n ih =>
      rw [sum_range_succ, ih (by omega), List.range_succ, List.map_append, List.sum_append, List.map_singleton, List.sum_singleton, extend_add]
      congr 1
      rw [mul_comm]
      congr 1
      have hn : n < qs.length := by omega
      simp [List.getElem?_eq_getElem hn, List.getElem?_eq_getElem hk]
  · rw [List.getElem?_eq_none (by rw [mk_length]; omega), List.getElem?_eq_none (by rw [share_length]; omega)]

theorem ostep_spec [DecidableEq K] (h : System np first nb lam doms t cmap nmap nsize dim kdim koff entry solve Rm g W f c S A) (hone : OneInterval np first lam doms A)
    {red : Nat → List K → Prog (List K) (Option (List K))} (hred : ReducesAll np red) (fresh : Nat → Nat → K) (n n' : Pcpg.OState K (allMults np lam → K)) (s : Nat → Scratch K) (v : Nat → Vectors K)
    (O : Nat → OrthoData K) (hok : ∀ p, p < np → OK p (s p) ∧ OHolds np lam n p (v p) (O p)) (hn : Pcpg.ostep ops n = some n') :
    ∃ (s' : Nat → Scratch K) (v' : Nat → Vectors K) (O' : Nat → OrthoData K), (∀ p, p < np → OK p (s' p) ∧ OHolds np lam n' p (v' p) (O' p)) ∧
      Completes (world 0 np fun p => (A p).ostep (fresh p) (red p) (s p) (O p) (v p) n.yw) (finished 0 np fun p => some (((v' p, n'.yw), O' p), s' p)) := by
  obtain ⟨h1, h2, hx, hr, hw, hyw, hps, hp'⟩ := Pcpg.ostep_some hn
  have hlen : n'.ps.length = n.ps.length + 1 := by rw [hps, List.length_append]; rfl
  have hne : ∀ q ∈ n'.ps, q.2.2 ≠ 0 := by
    intro q hq
    rw [hps] at hq
    rcases List.mem_append.1 hq with hq | hq
    · exact h2 q hq
    · rw [List.mem_singleton.1 hq]
      exact h1
  -- the new row of F p
  have hF : ∀ p, ∃ m row, p < np → (O p).Fpi.next (fresh p) = some (m, (lam p).length * n.ps.length) ∧ Holding m (lam p).length ((n.ps.map fun a => share np lam a.2.1 p) ++ [row]) := by
    intro p
    by_cases hp : p < np
    · obtain ⟨m, row, e1, e2⟩ := holding_next (hok p hp).2.Fpi (fresh p)
      rw [List.length_map] at e1
      exact ⟨m, row, fun _ => ⟨e1, e2⟩⟩
    · exact ⟨(O p).pi, [], fun h => absurd h hp⟩
  choose m1 row1 hm1 using hF
  obtain ⟨s1, k1, e1⟩ := does_share (applyF_spec h) n.p s row1 (fun p hp => ⟨(hok p hp).1, (hm1 p hp).2.len _ (List.mem_append_right _ (List.mem_singleton.2 rfl))⟩)
  have hF' : ∀ p, ∃ m, p < np → (m1 p).setRow ((lam p).length * n.ps.length) (share np lam ((ops).F n.p) p) = some m ∧ Holding m (lam p).length ((n'.ps.map fun a => a.2.1).map fun a => share np lam a p) := by
    intro p
    by_cases hp : p < np
    · obtain ⟨m, e1, e2⟩ := holding_setRow (hm1 p hp).2 (share np lam ((ops).F n.p) p) (share_length _ _)
      rw [List.length_map] at e1
      refine ⟨m, fun _ => ⟨e1, ?_⟩⟩
      rw [hps, List.map_append, List.map_append, List.map_map]
      exact e2
    · exact ⟨m1 p, fun h => absurd h hp⟩
  choose m2 hm2 using hF'
  obtain ⟨s2, k2, e2⟩ := precondition_spec h n'.r s1 (fun p => (v p).w) (fun p => (v p).z) (fun p => (v p).y) (fun p hp => ⟨k1 p hp, (hok p hp).2.w, (hok p hp).2.z, (hok p hp).2.y⟩)
  obtain ⟨d, hd, e3⟩ := products_spec h hone hred (n'.ps.map fun a => a.2.1) (Pcpg.yOf ops n'.r) m2 (fun p => (O p).yFp ++ [0]) (fun p hp => ⟨(hm2 p hp).2, by
    rw [List.length_append, (hok p hp).2.yFp, List.length_map, hlen]; rfl⟩)
  obtain ⟨cs, hcs⟩ : ∃ cs : Nat → K, cs = fun i => (ops).dot (Pcpg.yOf ops n'.r) ((n'.ps.map fun a => a.2.1).getD i 0) / (-(n'.ps.map fun a => a.2.2).getD i 0) := ⟨_, rfl⟩
  have hdiv : divideAll (mk (n'.ps.map fun a => a.2.1).length fun i => (ops).dot (Pcpg.yOf ops n'.r) ((n'.ps.map fun a => a.2.1).getD i 0)) (n'.ps.map fun a => a.2.2) = some (mk n'.ps.length cs) := by
    have := divideAll_spec (n'.ps.map fun a => a.2.2) (by
      intro q hq
      obtain ⟨a, ha, rfl⟩ := List.mem_map.1 hq
      exact hne a ha) fun i => (ops).dot (Pcpg.yOf ops n'.r) ((n'.ps.map fun a => a.2.1).getD i 0)
    rw [List.length_map] at this ⊢
    rw [hcs]
    exact this
  -- the new direction
  have hP : ∀ p, ∃ m row, p < np → (O p).pi.next (fresh p) = some (m, (lam p).length * n'.ps.length) ∧ Holding m (lam p).length (((n'.ps.map fun a => a.1).map fun a => share np lam a p) ++ [row]) := by
    intro p
    by_cases hp : p < np
    · obtain ⟨m, row, e1, e2⟩ := holding_next (hok p hp).2.pi (fresh p)
      refine ⟨m, row, fun _ => ⟨?_, ?_⟩⟩
      · rw [List.length_append, List.length_map] at e1
        rw [hlen]
        exact e1
      · rw [hps, List.map_append, List.map_append, List.map_map]
        exact e2
    · exact ⟨(O p).pi, [], fun h => absurd h hp⟩
  choose m3 row3 hm3 using hP
  obtain ⟨sum, hsum⟩ : ∃ sum : allMults np lam → K, sum = ((List.range n'.ps.length).map fun r => cs r • (n'.ps.map fun a => a.1).getD r 0).sum := ⟨_, rfl⟩
  have hP' : ∀ p, ∃ m, p < np → (m3 p).applyT (mk n'.ps.length cs) ((lam p).length * n'.ps.length) = some m ∧
      Holding m (lam p).length (((n'.ps.map fun a => a.1).map fun a => share np lam a p) ++ [share np lam sum p]) := by
    intro p
    by_cases hp : p < np
    · obtain ⟨m, e1, e2⟩ := applyT_spec (hm3 p hp).2 (by rw [List.length_map, List.length_map, hlen]; omega) cs
      rw [share_sum, List.length_map, ← hsum] at e2
      rw [List.length_map, List.length_map] at e1
      exact ⟨m, fun _ => ⟨e1, e2⟩⟩
    · exact ⟨m3 p, fun h => absurd h hp⟩
  choose m4 hm4 using hP'
  have hdir : sum + (1 : K) • Pcpg.yOf ops n'.r = n'.p := by
    rw [hp', Pcpg.comb, one_smul, hsum]
    congr 2
    apply List.ext_getElem?
    intro i
    by_cases hi : i < n'.ps.length
    · rw [List.getElem?_map, List.getElem?_map, List.getElem?_range hi, List.getElem?_eq_getElem hi, hcs]
      simp [List.getElem?_eq_getElem hi]
    · rw [List.getElem?_eq_none (by simpa using hi), List.getElem?_eq_none (by simpa using hi)]
  have hP'' : ∀ p, ∃ m, p < np → (m4 p).setRow ((lam p).length * n'.ps.length) (share np lam n'.p p) = some m ∧
      Holding m (lam p).length (((n'.ps.map fun a => a.1).map fun a => share np lam a p) ++ [share np lam n'.p p]) := by
    intro p
    by_cases hp : p < np
    · obtain ⟨m, e1, e2⟩ := holding_setRow (hm4 p hp).2 (share np lam n'.p p) (share_length _ _)
      rw [List.length_map, List.length_map] at e1
      exact ⟨m, fun _ => ⟨e1, e2⟩⟩
    · exact ⟨m4 p, fun h => absurd h hp⟩
  choose m5 hm5 using hP''
  refine ⟨s2, fun p => ⟨share np lam n'.x p, share np lam n'.r p, share np lam ((ops).Pt n'.r) p, share np lam (Pcpg.yOf ops n'.r) p, share np lam ((ops).S ((ops).Pt n'.r)) p, (v p).p, (v p).Fp⟩,
    fun p => ⟨m5 p, m2 p, mk n'.ps.length cs, n'.ps.map (fun a => a.2.2), (lam p).length * n'.ps.length⟩, ?_, ?_⟩
  · intro p hp
    refine ⟨k2 p hp, rfl, rfl, share_length _ _, share_length _ _, share_length _ _, ?_, ?_, mk_length _ _, rfl, rfl⟩
    · have := (hm5 p hp).2
      rw [List.map_map] at this
      exact this
    · have := (hm2 p hp).2
      rw [List.map_map] at this
      exact this
  · unfold Process.ostep
    refine completes_orFail (fun p => (m1 p, (lam p).length * n.ps.length)) (fun p hp => (hm1 p hp).1) ?_
    refine completes_orFail (fun p => share np lam n.p p) (fun p hp => ?_) ?_
    · rw [(hok p hp).2.off]
      have := holding_row (hok p hp).2.pi
      rw [List.length_map] at this
      exact this
    refine completes_orFail row1 (fun p hp => ?_) ?_
    · have := holding_row (hm1 p hp).2
      rw [List.length_map] at this
      exact this
    refine world_andThen _ e1 ?_
    refine completes_orFail m2 (fun p hp => (hm2 p hp).1) ?_
    refine world_andThen _ (dot_share h n.p ((ops).F n.p)) ?_
    refine completes_orFail (fun _ => n.yw / (ops).dot n.p ((ops).F n.p)) (fun p _ => by unfold divide; rw [if_neg h1]) ?_
    refine completes_orFail (fun p => share np lam n'.x p) (fun p hp => by rw [(hok p hp).2.x, hx]; exact share_add _ _ _ p) ?_
    refine completes_orFail (fun p => share np lam n'.r p) (fun p hp => by rw [(hok p hp).2.r, hr]; exact share_add _ _ _ p) ?_
    refine world_andThen _ e2 ?_
    refine completes_orFail _ hd ?_
    refine world_andThen _ e3 ?_
    refine completes_orFail (fun p => ⟨m5 p, m2 p, mk n'.ps.length cs, n'.ps.map (fun a => a.2.2), (lam p).length * n'.ps.length⟩) (fun p hp => ?_) ?_
    · have e5 : (O p).pFp ++ [(ops).dot n.p ((ops).F n.p)] = n'.ps.map fun a => a.2.2 := by rw [(hok p hp).2.pFp, hps, List.map_append]; rfl
      have e6 := holding_row (hm4 p hp).2
      rw [List.length_map, List.length_map] at e6
      unfold OrthoData.direction
      rw [e5, hdiv]
      simp only [Option.bind_eq_bind, Option.bind_some]
      rw [(hm3 p hp).1]
      simp only [Option.bind_some]
      rw [(hm4 p hp).1]
      simp only [Option.bind_some]
      rw [e6]
      simp only [Option.bind_some]
      have e7 : addScaled (share np lam sum p) 1 (share np lam (Pcpg.yOf ops n'.r) p) = some (share np lam n'.p p) := by rw [← hdir]; exact share_add _ _ _ p
      rw [e7]
      simp only [Option.bind_some]
      rw [(hm5 p hp).1]
      rfl
    have e4 := dot_share h (Pcpg.yOf ops n'.r) ((ops).Pt n'.r)
    have : (ops).dot (Pcpg.yOf ops n'.r) ((ops).Pt n'.r) = n'.yw := hyw.symm
    rw [this] at e4
    refine world_andThen _ e4 ?_
    exact world_ret _ _ _

theorem oloop_spec [LinearOrder K] (h : System np first nb lam doms t cmap nmap nsize dim kdim koff entry solve Rm g W f c S A) (hone : OneInterval np first lam doms A)
    {red : Nat → List K → Prog (List K) (Option (List K))} (hred : ReducesAll np red) (fresh : Nat → Nat → K) (cfg : Pcpg.Config K) (fuel : Nat) :
    ∀ (n : Pcpg.OState K (allMults np lam → K)) (info : Pcpg.Info K) (s : Nat → Scratch K) (v : Nat → Vectors K) (O : Nat → OrthoData K) (n' : Pcpg.OState K (allMults np lam → K)) (out : Pcpg.Info K),
      (∀ p, p < np → OK p (s p) ∧ OHolds np lam n p (v p) (O p)) → Pcpg.oloop ops cfg fuel n info = some (n', out) →
      ∃ (s' : Nat → Scratch K) (v' : Nat → Vectors K) (O' : Nat → OrthoData K), (∀ p, p < np → OK p (s' p) ∧ OHolds np lam n' p (v' p) (O' p)) ∧
        Completes (world 0 np fun p => (A p).oloop (fresh p) (red p) cfg fuel (s p) (O p) (v p) n.yw info) (finished 0 np fun p => some (((v' p, out), O' p), s' p)) := by
  induction fuel with
  | zero =>
    intro n info s v O n' out hok e
    unfold Pcpg.oloop at e
    split at e
    · rename_i hc
      cases e
      refine ⟨s, v, O, hok, ?_⟩
      unfold Process.oloop
      simp only [if_pos hc]
      exact world_ret _ _ _
    · cases e
  | succ fuel ih =>
    intro n info s v O n' out hok e
    unfold Pcpg.oloop at e
    split at e
    · rename_i hc
      cases e
      refine ⟨s, v, O, hok, ?_⟩
      unfold Process.oloop
      simp only [if_pos hc]
      exact world_ret _ _ _
    · rename_i hc
      simp only [Option.bind_eq_bind] at e
      obtain ⟨n1, hn1, e⟩ := Option.bind_eq_some_iff.1 e
      obtain ⟨i, hu, e⟩ := Option.bind_eq_some_iff.1 e
      obtain ⟨s1, v1, O1, hok1, e1⟩ := ostep_spec h hone hred fresh n n1 s v O hok hn1
      obtain ⟨s', v', O', hok', e2⟩ := ih n1 i s1 v1 O1 n' out hok1 e
      refine ⟨s', v', O', hok', ?_⟩
      unfold Process.oloop
      simp only [if_neg hc]
      refine world_andThen _ e1 ?_
      exact completes_orFail (fun _ => i) (fun p _ => hu) e2

end Verif.Feti
