import Verif.Proof.Projector
import Verif.Prop.DualOperator
/-! C66: the projector of Total FETI on distributed vectors. -/
namespace Verif.Feti

open Verif.Csx Verif.Dual Verif.Comm Verif.Mpi Finset

variable {L R : Type} [DecidableEq L] [CommRing R]
variable {np : Nat} {first : Nat → Nat} {nb : Nat → List Nat} {lam : Nat → List L} {doms : L → List Nat}

/-- The matrix with `n` rows and `m` columns stored by rows. -/
def Stored (n m : Nat) (a : List R) (A : Nat → Nat → R) : Prop := ∀ r, r < n → ∀ c, c < m → a[m * r + c]? = some (A r c)

/-- The processes have the rows of `W`, or of its two factors. -/
inductive Inverts (np : Nat) (roff : Nat → Nat) (W : Nat → Nat → R) (factor : Nat → Factor R) : Prop
  | ggt (inv : Nat → List R) (h : ∀ p, p < np → factor p = .ggt (inv p) ∧ Stored (roff (p + 1) - roff p) (roff np) (inv p) fun r c => W (roff p + r) c)
  | lu (invL invU : Nat → List R) (A B : Nat → Nat → R) (h : ∀ p, p < np → factor p = .lu (invL p) (invU p) ∧
      Stored (roff (p + 1) - roff p) (roff np) (invL p) (fun r c => A (roff p + r) c) ∧ Stored (roff (p + 1) - roff p) (roff np) (invU p) fun r c => B (roff p + r) c)
      (hW : ∀ k m, W k m = ∑ i ∈ range (roff np), B k i * A i m)
  | none (h0 : roff np = 0) (h : ∀ p, p < np → factor p = .none)

/-- The data of the projector on the processes. -/
structure Configured (np : Nat) (first : Nat → Nat) (nb : Nat → List Nat) (lam : Nat → List L) (doms : L → List Nat) (t : Nat) (roff : Nat → Nat) (nmap : Nat → List Nat) (g : Nat → L → R)
    (W : Nat → Nat → R) (P : Nat → Projector R) : Prop where
  rows : RowsOf np lam roff g
  rank : ∀ p, p < np → (P p).rank = p
  size : ∀ p, p < np → (P p).size = np
  tag : ∀ p, p < np → (P p).tag = t
  neighbors : ∀ p, p < np → (P p).nb = nb p
  map : ∀ p, p < np → (P p).nmap = nmap p
  intervals : ∀ p, p < np → ∃ iv, Intervals first p (lam p) doms iv ∧ (P p).li = localIntervals iv
  threads : ∀ p, p < np → 0 < (P p).threads ∧ ∃ chunk, kernelDistribution (P p).threads chunk (roff (p + 1) - roff p) = some (P p).dist
  roffset : ∀ p, p < np → (P p).roffset = roff p
  rsize : ∀ p, p < np → (P p).rsize = roff (p + 1) - roff p
  total : ∀ p, p < np → (P p).total = roff np
  wf : ∀ p, p < np → WellFormed (P p).G
  nrows : ∀ p, p < np → (P p).G.np = roff (p + 1) - roff p
  ncols : ∀ p, p < np → (P p).G.ns = (lam p).length
  entries : ∀ p, p < np → ∀ r, r < roff (p + 1) - roff p → ∀ (k : Nat) (l : L), (lam p)[k]? = some l → (P p).G.at r k = g (roff p + r) l
  inverse : Inverts np roff W fun p => (P p).factor

/-- The sizes of the work vectors. -/
structure WorkOk (N n m : Nat) (nsize : List Nat) (w : Work R) : Prop where
  Gx : w.Gx.length = N
  iGGtGx : w.iGGtGx.length = n
  Fx : w.Fx.length = m
  mid : w.mid.length = N
  bufs : w.bufs.send.map List.length = nsize ∧ w.bufs.recv.map List.length = nsize

variable {t : Nat} {roff : Nat → Nat} {nmap nsize : Nat → List Nat} {g : Nat → L → R} {W : Nat → Nat → R} {P : Nat → Projector R}

theorem Configured.covers (hP : Configured np first nb lam doms t roff nmap g W P) {p : Nat} (hp : p < np) : Covers (P p).threads (P p).dist (roff (p + 1) - roff p) := by
  obtain ⟨h1, chunk, h2⟩ := hP.threads p hp
  obtain ⟨d, h3, h4⟩ := kernelDistribution_spec (chunk := chunk) h1 (roff (p + 1) - roff p)
  rw [h2] at h3
  cases h3
  exact h4

theorem Configured.le (hP : Configured np first nb lam doms t roff nmap g W P) {p : Nat} (hp : p < np) : roff p + (roff (p + 1) - roff p) ≤ roff np := by
  have := first_mono hP.rows.mono (show p + 1 ≤ np from hp)
  have := hP.rows.mono p
  omega

/-- A sum over the positions of the multipliers of a process. -/
theorem sum_positions (l : List L) (F : Nat → R) (G : L → R) (h : ∀ (k : Nat) (x : L), l[k]? = some x → F k = G x) : ∑ k ∈ range l.length, F k = (l.map G).sum := by
  rw [← list_sum_range]
  congr 1
  apply List.ext_getElem?
  intro k
  rw [List.getElem?_map, List.getElem?_map]
  by_cases hk : k < l.length
  · rw [List.getElem?_range hk, List.getElem?_eq_getElem hk]
    show some _ = some _
    rw [h k _ (List.getElem?_eq_getElem hk)]
  · rw [List.getElem?_eq_none (by rw [List.length_range]; omega), List.getElem?_eq_none (by omega)]
    rfl

/-- `_apply_G`: every process gets all values of `G X`. -/
theorem C66_applyG (H : Shared np first nb lam doms) (hnp : 0 < np) (hP : Configured np first nb lam doms t roff nmap g W P) (X : L → R) (out : Nat → List R)
    (ho : ∀ p, p < np → (out p).length = roff np) :
    Completes (world 0 np fun p => (P p).applyG ((lam p).map X) (out p)) (finished 0 np fun _ => some (mk (roff np) (timesG (allMults np lam) g X))) := by
  have := syncKernel_spec t hnp hP.rows.zero hP.rows.mono (timesG (allMults np lam) g X) fun p i => (out p).getD i 0
  rw [← world_orFail (fun p => applyGLocal (P p).threads (P p).dist (P p).roffset (P p).G ((lam p).map X) (out p))
    (fun p => mk (roff np) fun i => if roff p ≤ i ∧ i < roff p + (roff (p + 1) - roff p) then timesG (allMults np lam) g X i else (out p).getD i 0)
    (fun p out => syncKernel t p np out (roff p) (roff (p + 1) - roff p))] at this
  · rw [world_congr (q := fun p => orFail (applyGLocal (P p).threads (P p).dist (P p).roffset (P p).G ((lam p).map X) (out p)) fun out => syncKernel t p np out (roff p) (roff (p + 1) - roff p))]
    · exact this
    · intro p _ hp
      unfold Projector.applyG
      rw [hP.tag p hp, hP.rank p hp, hP.size p hp, hP.roffset p hp, hP.rsize p hp]
  · intro p hp
    have hle := hP.le hp
    rw [hP.roffset p hp, applyGLocal_spec (by rw [hP.nrows p hp]; exact hP.covers hp) (hP.wf p hp) (by rw [List.length_map, hP.ncols p hp]) (by rw [hP.nrows p hp, ho p hp]; exact hle), hP.nrows p hp, hP.ncols p hp, ho p hp]
    congr 1
    apply mk_congr
    intro i _
    by_cases hi : roff p ≤ i ∧ i < roff p + (roff (p + 1) - roff p)
    · rw [if_pos hi, if_pos hi]
      unfold timesG
      rw [sum_lam H.nodup hp _ (fun l hl hn => by rw [hP.rows.outside p hp i hi.1 (by omega) l hl hn, zero_mul])]
      apply sum_positions
      intro k l hk
      rw [hP.entries p hp (i - roff p) (by omega) k l hk, show roff p + (i - roff p) = i by omega, List.getD_eq_getElem?_getD, List.getElem?_map, hk]
      rfl
    · rw [if_neg hi, if_neg hi]

/-- `_apply_invGGt`: every process gets its rows of `W z`. -/
theorem C66_applyInvGGt (hnp : 0 < np) (hP : Configured np first nb lam doms t roff nmap g W P) (z : Nat → R) (mid out : Nat → List R)
    (hm : ∀ p, p < np → (mid p).length = roff np) (ho : ∀ p, p < np → (out p).length = roff (p + 1) - roff p) :
    Completes (world 0 np fun p => (P p).applyInvGGt (mid p) (mk (roff np) z) (out p))
      (finished 0 np fun p => some (mk (roff (p + 1) - roff p) fun r => timesW (roff np) W z (roff p + r))) := by
  have hrows : ∀ (a : Nat → List R) (A : Nat → Nat → R), (∀ p, p < np → Stored (roff (p + 1) - roff p) (roff np) (a p) fun r c => A (roff p + r) c) → ∀ z : Nat → R, ∀ p, p < np →
      applyRows (P p).threads (P p).dist (P p).total (a p) (mk (roff np) z) 0 (out p) = some (mk (roff (p + 1) - roff p) fun r => timesW (roff np) A z (roff p + r)) := by
    intro a A ha z p hp
    rw [hP.total p hp, applyRows_spec (hP.covers hp) (fun r c => A (roff p + r) c) (ha p hp) (mk_length _ _) (by rw [ho p hp]; omega), ho p hp]
    congr 1
    apply mk_congr
    intro r hr
    rw [if_pos (by omega), Nat.sub_zero]
    unfold timesW
    apply sum_congr rfl
    intro c hc
    rw [mk_getD _ _ (mem_range.1 hc)]
  cases hP.inverse with
  | ggt inv h =>
      rw [world_congr (q := fun p => orFail (applyRows (P p).threads (P p).dist (P p).total (inv p) (mk (roff np) z) 0 (out p)) fun out => .ret (some out)) (by
        intro p _ hp
        unfold Projector.applyInvGGt
        rw [(h p hp).1]), world_orFail _ _ _ (hrows inv W (fun p hp => (h p hp).2) z)]
      exact world_ret _ _ _
  | lu invL invU A B h hW =>
      have e : ∀ p, p < np → applyRows (P p).threads (P p).dist (P p).total (invL p) (mk (roff np) z) (P p).roffset (mid p) =
          some (mk (roff np) fun i => if roff p ≤ i ∧ i < roff p + (roff (p + 1) - roff p) then timesW (roff np) A z i else (mid p).getD i 0) := by
        intro p hp
        rw [hP.total p hp, hP.roffset p hp, applyRows_spec (hP.covers hp) (fun r c => A (roff p + r) c) (h p hp).2.1 (mk_length _ _) (by rw [hm p hp]; exact hP.le hp), hm p hp]
        congr 1
        apply mk_congr
        intro i _
        by_cases hi : roff p ≤ i ∧ i < roff p + (roff (p + 1) - roff p)
        · rw [if_pos hi, if_pos hi]
          unfold timesW
          apply sum_congr rfl
          intro c hc
          rw [mk_getD _ _ (mem_range.1 hc), show roff p + (i - roff p) = i by omega]
        · rw [if_neg hi, if_neg hi]
      rw [world_congr (q := fun p => orFail (applyRows (P p).threads (P p).dist (P p).total (invL p) (mk (roff np) z) (P p).roffset (mid p)) fun mid =>
          andThen (syncKernel t p np mid (roff p) (roff (p + 1) - roff p)) fun mid =>
            orFail (applyRows (P p).threads (P p).dist (P p).total (invU p) mid 0 (out p)) fun out => .ret (some out)) (by
        intro p _ hp
        unfold Projector.applyInvGGt
        rw [(h p hp).1, hP.tag p hp, hP.rank p hp, hP.size p hp, hP.roffset p hp, hP.rsize p hp]), world_orFail _ _ _ e]
      refine world_andThen _ (syncKernel_spec t hnp hP.rows.zero hP.rows.mono (timesW (roff np) A z) fun p i => (mid p).getD i 0) ?_
      rw [world_orFail _ _ _ (hrows invU B (fun p hp => (h p hp).2.2) (timesW (roff np) A z))]
      have hcomp : ∀ k, timesW (roff np) B (timesW (roff np) A z) k = timesW (roff np) W z k := by
        intro k
        unfold timesW
        simp only [hW, mul_sum, sum_mul]
        rw [sum_comm]
        apply sum_congr rfl; intro i _; apply sum_congr rfl; intro j _; ring
      simp only [hcomp]
      exact world_ret _ _ _
  | none h0 h =>
      rw [world_congr (q := fun p => .ret (some (mk (roff (p + 1) - roff p) fun r => timesW (roff np) W z (roff p + r)))) (by
        intro p _ hp
        unfold Projector.applyInvGGt
        rw [h p hp]
        have := hP.le hp
        have hz : roff (p + 1) - roff p = 0 := by omega
        have : out p = [] := List.length_eq_zero_iff.1 (by rw [ho p hp, hz])
        rw [this, hz]
        rfl)]
      exact world_ret _ _ _

/-- `_apply_Gt`: the vectors of the processes with the values `v p` become the sums of these values and `α Gᵀ z`. -/
theorem C66_applyGt (hS : Synchronizes R np nb lam nmap nsize) (hP : Configured np first nb lam doms t roff nmap g W P) (z : Nat → R) (α : R) (v : Nat → L → R)
    (hv : ∀ q, q < np → ∀ l ∈ allMults np lam, l ∉ lam q → v q l = 0) (b : Nat → Buffers R)
    (hb : ∀ p, p < np → (b p).send.map List.length = nsize p ∧ (b p).recv.map List.length = nsize p) :
    ∃ b' : Nat → Buffers R, (∀ p, p < np → (b' p).send.map List.length = nsize p ∧ (b' p).recv.map List.length = nsize p) ∧
      Completes (world 0 np fun p => (P p).applyGt (mk (roff (p + 1) - roff p) fun r => z (roff p + r)) α ((lam p).map (v p)) (b p))
        (finished 0 np fun p => some ((lam p).map fun l => ∑ q ∈ range np, v q l + α * timesGt (roff np) g z l, b' p)) := by
  obtain ⟨b', h1, h2⟩ := hS t (fun p l => v p l + α * ∑ r ∈ range (roff (p + 1) - roff p), g (roff p + r) l * z (roff p + r)) b (by
    intro q hq l hl hn
    rw [hv q hq l hl hn, sum_eq_zero, mul_zero, add_zero]
    intro r hr
    have := mem_range.1 hr
    rw [hP.rows.outside q hq _ (by omega) (by omega) l hl hn, zero_mul]) hb
  refine ⟨b', h1, ?_⟩
  have hres : ∀ l, ∑ q ∈ range np, (v q l + α * ∑ r ∈ range (roff (q + 1) - roff q), g (roff q + r) l * z (roff q + r)) = ∑ q ∈ range np, v q l + α * timesGt (roff np) g z l := by
    intro l
    rw [sum_add_distrib, ← mul_sum, sum_parts hP.rows.zero hP.rows.mono fun k => g k l * z k]
    rfl
  simp only [hres] at h2
  rw [world_congr (q := fun p => orFail (applyGtLocal (P p).G (mk (roff (p + 1) - roff p) fun r => z (roff p + r)) α ((lam p).map (v p))) fun out => syncDual t (nb p) (nmap p) out (b p)) (by
    intro p _ hp
    unfold Projector.applyGt
    rw [hP.tag p hp, hP.neighbors p hp, hP.map p hp]), world_orFail _ _ _ (fun p hp => ?_)]
  · exact h2
  · rw [applyGtLocal_spec (hP.wf p hp) α (by rw [mk_length, hP.nrows p hp]) (by rw [List.length_map, hP.ncols p hp]), hP.ncols p hp]
    congr 1
    apply List.ext_getElem?
    intro k
    by_cases hk : k < (lam p).length
    · rw [mk_get _ hk, List.getElem?_map, List.getElem?_eq_getElem hk]
      show some _ = some _
      congr 1
      rw [List.getD_eq_getElem?_getD, List.getElem?_map, List.getElem?_eq_getElem hk]
      show v p _ + _ = _
      congr 2
      rw [hP.nrows p hp]
      apply sum_congr rfl
      intro r hr
      rw [mk_getD _ _ (mem_range.1 hr), hP.entries p hp r (mem_range.1 hr) k _ (List.getElem?_eq_getElem hk)]
    · rw [List.getElem?_eq_none (by rw [mk_length]; omega), List.getElem?_eq_none (by rw [List.length_map]; omega)]

/-- Every multiplier has one owner. -/
theorem sum_owner (H : Shared np first nb lam doms) (X : L → R) {l : L} (hl : l ∈ allMults np lam) : ∑ q ∈ range np, (if Owns first q ((doms l).headD 0) then X l else 0) = X l := by
  obtain ⟨p, hp, hlp⟩ := mem_allMults.1 hl
  have hhead : (doms l).headD 0 ∈ doms l := by
    obtain ⟨d, hd, _⟩ := List.any_eq_true.1 (H.mine p hp l hlp)
    revert hd
    cases doms l with
    | nil => intro hd; cases hd
    | cons a ds => intro _; exact List.mem_cons_self ..
  obtain ⟨q, hq, ho, _⟩ := H.range p hp l hlp _ hhead
  rw [sum_eq_single q]
  · rw [if_pos ho]
  · intro q' _ hne
    rw [if_neg fun h => hne (owner_unique H.mono h ho)]
  · intro h; exact absurd (mem_range.2 hq) h

theorem halo_outside (H : Shared np first nb lam doms) (X : L → R) : ∀ q, q < np → ∀ l ∈ allMults np lam, l ∉ lam q → (if Owns first q ((doms l).headD 0) then X l else 0) = 0 := by
  intro q hq l hl hn
  obtain ⟨p, hp, hlp⟩ := mem_allMults.1 hl
  rw [if_neg]
  intro ho
  apply hn
  apply mem_of_acts H hq hp hlp _ ho
  obtain ⟨d, hd, _⟩ := List.any_eq_true.1 (H.mine p hp l hlp)
  revert hd
  cases doms l with
  | nil => intro hd; cases hd
  | cons a ds => intro _; exact List.mem_cons_self ..

theorem memcpyTo_full (buf src : List R) (h : buf.length = src.length) : memcpyTo buf 0 src = some src := by
  unfold memcpyTo
  rw [if_pos (by omega), List.take_zero, List.nil_append, List.drop_of_length_le (by omega), List.append_nil]

/-- C66: `apply` ends for every schedule on all processes with the vectors of `P X = X - Gᵀ W G X`. -/
theorem C66_apply (H : Shared np first nb lam doms) (hnp : 0 < np) (hS : Synchronizes R np nb lam nmap nsize) (hP : Configured np first nb lam doms t roff nmap g W P) (X : L → R)
    (w : Nat → Work R) (y : Nat → List R) (hw : ∀ p, p < np → WorkOk (roff np) (roff (p + 1) - roff p) (lam p).length (nsize p) (w p) ∧ (y p).length = (lam p).length) :
    ∃ w' : Nat → Work R, (∀ p, p < np → WorkOk (roff np) (roff (p + 1) - roff p) (lam p).length (nsize p) (w' p)) ∧
      Completes (world 0 np fun p => (P p).apply (w p) ((lam p).map X) (y p)) (finished 0 np fun p => some ((lam p).map (projected (roff np) (allMults np lam) g W X), w' p)) := by
  obtain ⟨b', hb', hd⟩ := C66_applyGt hS hP (timesW (roff np) W (timesG (allMults np lam) g X)) (-1) (fun p l => if Owns first p ((doms l).headD 0) then X l else 0) (halo_outside H X)
    (fun p => (w p).bufs) (fun p hp => (hw p hp).1.bufs)
  refine ⟨fun p => ⟨mk (roff np) (timesG (allMults np lam) g X), mk (roff (p + 1) - roff p) fun r => timesW (roff np) W (timesG (allMults np lam) g X) (roff p + r), (lam p).map X, (w p).mid, b' p⟩,
    fun p hp => ⟨mk_length _ _, mk_length _ _, List.length_map _, (hw p hp).1.mid, hb' p hp⟩, ?_⟩
  unfold Projector.apply
  rw [world_orFail _ _ _ (fun p hp => by
    obtain ⟨iv, h1, h2⟩ := hP.intervals p hp
    rw [h2]
    exact copyToWithoutHalo_spec H hp h1 X (y p) (hw p hp).2),
    world_orFail _ _ _ (fun p hp => memcpyTo_full (w p).Fx ((lam p).map X) (by rw [(hw p hp).1.Fx, List.length_map]))]
  refine world_andThen _ (C66_applyG H hnp hP X (fun p => (w p).Gx) fun p hp => (hw p hp).1.Gx) ?_
  refine world_andThen _ (C66_applyInvGGt hnp hP (timesG (allMults np lam) g X) (fun p => (w p).mid) (fun p => (w p).iGGtGx) (fun p hp => (hw p hp).1.mid) fun p hp => (hw p hp).1.iGGtGx) ?_
  refine world_andThen _ hd ?_
  rw [finished_congr (q := fun p => some ((lam p).map fun l => ∑ q ∈ range np, (if Owns first q ((doms l).headD 0) then X l else 0) + -1 * timesGt (roff np) g (timesW (roff np) W (timesG (allMults np lam) g X)) l,
    (⟨mk (roff np) (timesG (allMults np lam) g X), mk (roff (p + 1) - roff p) fun r => timesW (roff np) W (timesG (allMults np lam) g X) (roff p + r), (lam p).map X, (w p).mid, b' p⟩ : Work R)))]
  · exact world_ret _ _ _
  · intro p _ hp
    congr 2
    apply List.map_congr_left
    intro l hl
    rw [sum_owner H X (mem_allMults.2 ⟨p, hp, hl⟩)]
    unfold projected coarse
    ring

/-- C66: `applyT` gives the same (the orthogonal projector is symmetric). -/
theorem C66_applyT (H : Shared np first nb lam doms) (hnp : 0 < np) (hS : Synchronizes R np nb lam nmap nsize) (hP : Configured np first nb lam doms t roff nmap g W P) (X : L → R)
    (w : Nat → Work R) (y : Nat → List R) (hw : ∀ p, p < np → WorkOk (roff np) (roff (p + 1) - roff p) (lam p).length (nsize p) (w p) ∧ (y p).length = (lam p).length) :
    ∃ w' : Nat → Work R, (∀ p, p < np → WorkOk (roff np) (roff (p + 1) - roff p) (lam p).length (nsize p) (w' p)) ∧
      Completes (world 0 np fun p => (P p).applyT (w p) ((lam p).map X) (y p)) (finished 0 np fun p => some ((lam p).map (projected (roff np) (allMults np lam) g W X), w' p)) := by
  obtain ⟨b', hb', hd⟩ := C66_applyGt hS hP (timesW (roff np) W (timesG (allMults np lam) g X)) (-1) (fun p l => if Owns first p ((doms l).headD 0) then X l else 0) (halo_outside H X)
    (fun p => (w p).bufs) (fun p hp => (hw p hp).1.bufs)
  refine ⟨fun p => ⟨mk (roff np) (timesG (allMults np lam) g X), mk (roff (p + 1) - roff p) fun r => timesW (roff np) W (timesG (allMults np lam) g X) (roff p + r), (w p).Fx, (w p).mid, b' p⟩,
    fun p hp => ⟨mk_length _ _, mk_length _ _, (hw p hp).1.Fx, (hw p hp).1.mid, hb' p hp⟩, ?_⟩
  unfold Projector.applyT
  rw [world_orFail _ _ _ (fun p hp => by
    obtain ⟨iv, h1, h2⟩ := hP.intervals p hp
    rw [h2]
    exact copyToWithoutHalo_spec H hp h1 X (y p) (hw p hp).2)]
  refine world_andThen _ (C66_applyG H hnp hP X (fun p => (w p).Gx) fun p hp => (hw p hp).1.Gx) ?_
  refine world_andThen _ (C66_applyInvGGt hnp hP (timesG (allMults np lam) g X) (fun p => (w p).mid) (fun p => (w p).iGGtGx) (fun p hp => (hw p hp).1.mid) fun p hp => (hw p hp).1.iGGtGx) ?_
  refine world_andThen _ hd ?_
  rw [finished_congr (q := fun p => some ((lam p).map fun l => ∑ q ∈ range np, (if Owns first q ((doms l).headD 0) then X l else 0) + -1 * timesGt (roff np) g (timesW (roff np) W (timesG (allMults np lam) g X)) l,
    (⟨mk (roff np) (timesG (allMults np lam) g X), mk (roff (p + 1) - roff p) fun r => timesW (roff np) W (timesG (allMults np lam) g X) (roff p + r), (w p).Fx, (w p).mid, b' p⟩ : Work R)))]
  · exact world_ret _ _ _
  · intro p _ hp
    congr 2
    apply List.map_congr_left
    intro l hl
    rw [sum_owner H X (mem_allMults.2 ⟨p, hp, hl⟩)]
    unfold projected coarse
    ring

theorem zeros_map (l : List L) (y : List R) (h : y.length = l.length) : zeros y = l.map fun _ => (0 : R) := by
  unfold zeros
  rw [List.map_const', List.map_const', h]

/-- C66: `apply_GtintGGt` gives `Gᵀ W z` for a vector `z` of the kernels (with `z = e`: the initial multipliers). -/
theorem C66_initial (hnp : 0 < np) (hS : Synchronizes R np nb lam nmap nsize) (hP : Configured np first nb lam doms t roff nmap g W P) (z : Nat → R)
    (w : Nat → Work R) (y : Nat → List R) (hw : ∀ p, p < np → WorkOk (roff np) (roff (p + 1) - roff p) (lam p).length (nsize p) (w p) ∧ (y p).length = (lam p).length) :
    ∃ w' : Nat → Work R, (∀ p, p < np → WorkOk (roff np) (roff (p + 1) - roff p) (lam p).length (nsize p) (w' p)) ∧
      Completes (world 0 np fun p => (P p).applyGtinvGGt (w p) (mk (roff np) z) (y p)) (finished 0 np fun p => some ((lam p).map (timesGt (roff np) g (timesW (roff np) W z)), w' p)) := by
  obtain ⟨b', hb', hd⟩ := C66_applyGt hS hP (timesW (roff np) W z) 1 (fun _ _ => 0) (fun _ _ _ _ _ => rfl) (fun p => (w p).bufs) (fun p hp => (hw p hp).1.bufs)
  simp only [sum_const_zero, zero_add, one_mul] at hd
  refine ⟨fun p => ⟨(w p).Gx, mk (roff (p + 1) - roff p) fun r => timesW (roff np) W z (roff p + r), (w p).Fx, (w p).mid, b' p⟩,
    fun p hp => ⟨(hw p hp).1.Gx, mk_length _ _, (hw p hp).1.Fx, (hw p hp).1.mid, hb' p hp⟩, ?_⟩
  unfold Projector.applyGtinvGGt
  refine world_andThen _ (C66_applyInvGGt hnp hP z (fun p => (w p).mid) (fun p => (w p).iGGtGx) (fun p hp => (hw p hp).1.mid) fun p hp => (hw p hp).1.iGGtGx) ?_
  rw [world_congr (q := fun p => andThen ((P p).applyGt (mk (roff (p + 1) - roff p) fun r => timesW (roff np) W z (roff p + r)) 1 ((lam p).map fun _ => 0) (w p).bufs)
    fun r => .ret (some (r.1, (⟨(w p).Gx, mk (roff (p + 1) - roff p) fun r => timesW (roff np) W z (roff p + r), (w p).Fx, (w p).mid, r.2⟩ : Work R)))) (by
    intro p _ hp
    rw [zeros_map (lam p) (y p) (hw p hp).2])]
  exact world_andThen _ hd (world_ret _ _ _)

/-- C66: `apply_GtintGGtG` gives `Gᵀ W G X`. -/
theorem C66_coarse (H : Shared np first nb lam doms) (hnp : 0 < np) (hS : Synchronizes R np nb lam nmap nsize) (hP : Configured np first nb lam doms t roff nmap g W P) (X : L → R)
    (w : Nat → Work R) (y : Nat → List R) (hw : ∀ p, p < np → WorkOk (roff np) (roff (p + 1) - roff p) (lam p).length (nsize p) (w p) ∧ (y p).length = (lam p).length) :
    ∃ w' : Nat → Work R, (∀ p, p < np → WorkOk (roff np) (roff (p + 1) - roff p) (lam p).length (nsize p) (w' p)) ∧
      Completes (world 0 np fun p => (P p).applyGtinvGGtG (w p) ((lam p).map X) (y p)) (finished 0 np fun p => some ((lam p).map (coarse (roff np) (allMults np lam) g W X), w' p)) := by
  obtain ⟨b', hb', hd⟩ := C66_applyGt hS hP (timesW (roff np) W (timesG (allMults np lam) g X)) 1 (fun _ _ => 0) (fun _ _ _ _ _ => rfl) (fun p => (w p).bufs) (fun p hp => (hw p hp).1.bufs)
  simp only [sum_const_zero, zero_add, one_mul] at hd
  refine ⟨fun p => ⟨mk (roff np) (timesG (allMults np lam) g X), mk (roff (p + 1) - roff p) fun r => timesW (roff np) W (timesG (allMults np lam) g X) (roff p + r), (w p).Fx, (w p).mid, b' p⟩,
    fun p hp => ⟨mk_length _ _, mk_length _ _, (hw p hp).1.Fx, (hw p hp).1.mid, hb' p hp⟩, ?_⟩
  unfold Projector.applyGtinvGGtG
  refine world_andThen _ (C66_applyG H hnp hP X (fun p => (w p).Gx) fun p hp => (hw p hp).1.Gx) ?_
  refine world_andThen _ (C66_applyInvGGt hnp hP (timesG (allMults np lam) g X) (fun p => (w p).mid) (fun p => (w p).iGGtGx) (fun p hp => (hw p hp).1.mid) fun p hp => (hw p hp).1.iGGtGx) ?_
  rw [world_congr (q := fun p => andThen ((P p).applyGt (mk (roff (p + 1) - roff p) fun r => timesW (roff np) W (timesG (allMults np lam) g X) (roff p + r)) 1 ((lam p).map fun _ => 0) (w p).bufs)
    fun r => .ret (some (r.1, (⟨mk (roff np) (timesG (allMults np lam) g X), mk (roff (p + 1) - roff p) fun r => timesW (roff np) W (timesG (allMults np lam) g X) (roff p + r), (w p).Fx, (w p).mid, r.2⟩ : Work R)))) (by
    intro p _ hp
    rw [zeros_map (lam p) (y p) (hw p hp).2])]
  exact world_andThen _ hd (world_ret _ _ _)

/-! ### The kernels -/

/-- The kernels of the domains of the processes: `kdim d` vectors with the numbers from `koff d`. -/
structure Kernels (np : Nat) (first : Nat → Nat) (dim kdim koff : Nat → Nat) (Rm : Nat → Nat → Nat → R) (P : Nat → Projector R) : Prop where
  zero : koff 0 = 0
  step : ∀ d, koff (d + 1) = koff d + kdim d
  count : ∀ p, p < np → (P p).Rs.length = first (p + 1) - first p ∧ (P p).offsets.length = first (p + 1) - first p
  offsets : ∀ p, p < np → ∀ j, j < first (p + 1) - first p → koff (first p) + (P p).offsets.getD j 0 = koff (first p + j)
  mats : ∀ p, p < np → ∀ (j : Nat) (A : Dense R), (P p).Rs[j]? = some A → A.nrows = kdim (first p + j) ∧ A.ncols = dim (first p + j) ∧ Stored A.nrows A.ncols A.vals fun k i => Rm (first p + j) k i

variable {dim kdim koff : Nat → Nat} {Rm : Nat → Nat → Nat → R}

theorem denseApplyT_spec {A : Dense R} {M : Nat → Nat → R} (hA : Stored A.nrows A.ncols A.vals M) {x : List R} {xoff : Nat} (hx : xoff + A.nrows ≤ x.length) {y : List R} (hy : y.length = A.ncols) :
    denseApplyT A x xoff y = some (mk A.ncols fun i => ∑ k ∈ range A.nrows, M k i * x.getD (xoff + k) 0) := by
  unfold denseApplyT
  rw [write_loop A.ncols y 0 (by omega) _ (fun i => ∑ k ∈ range A.nrows, M k i * x.getD (xoff + k) 0)]
  · rw [hy]
    congr 1
    apply mk_congr
    intro i hi
    rw [if_pos (by omega), Nat.sub_zero]
  · intro i hi f
    simp only [Option.bind_eq_bind]
    rw [sum_loop A.nrows (fun k => M k i * x.getD (xoff + k) 0) _ (by
      intro k hk s
      rw [hA k hk i hi, Option.bind_some, getD_get (show xoff + k < x.length by omega), Option.bind_some]), Option.bind_some, wr_mk _ _ (by omega), Nat.add_zero]

theorem koff_mono (hK : Kernels np first dim kdim koff Rm P) {a b : Nat} (h : a ≤ b) : koff a ≤ koff b :=
  first_mono (fun d => by rw [hK.step]; omega) h

/-- `_apply_R` of the rows of the process `p`. -/
theorem applyR_spec (hK : Kernels np first dim kdim koff Rm P) {p : Nat} (hp : p < np) (c : Nat → R) (y : List (List R)) (hy : Sized first dim p y) :
    applyR (P p).Rs (P p).offsets (mk (koff (first (p + 1)) - koff (first p)) fun r => c (koff (first p) + r)) y =
      some (localVectors first p (vectorOf dim (timesRt kdim koff Rm c))) := by
  unfold applyR localVectors
  rw [hy.1]
  conv_lhs => rw [vectors_mk _ y hy.1]
  apply forDomains_spec
  intro j hj
  simp only [Option.bind_eq_bind]
  have hjl : j < (P p).Rs.length := by rw [(hK.count p hp).1]; exact hj
  obtain ⟨h1, h2, h3⟩ := hK.mats p hp j _ (List.getElem?_eq_getElem hjl)
  have hoff := hK.offsets p hp j hj
  have hle := koff_mono hK (show first p + j + 1 ≤ first (p + 1) by omega)
  rw [hK.step] at hle
  rw [List.getElem?_eq_getElem hjl, Option.bind_some, getD_some (show j < (P p).offsets.length by rw [(hK.count p hp).2]; exact hj), Option.bind_some,
    denseApplyT_spec h3 (by rw [mk_length, h1]; omega) (by rw [hy.2 j hj, h2]), h2]
  congr 1
  unfold vectorOf
  apply mk_congr
  intro i _
  unfold timesRt
  rw [h1]
  apply sum_congr rfl
  intro k hk
  have := mem_range.1 hk
  rw [mk_getD _ _ (by omega), ← Nat.add_assoc, hoff]

/-- C66: `apply_RinvGGtG` gives the vectors `Rᵀ W G X` of the domains. -/
theorem C66_kernels (H : Shared np first nb lam doms) (hnp : 0 < np) (hK : Kernels np first dim kdim koff Rm P) (hP : Configured np first nb lam doms t (fun p => koff (first p)) nmap g W P)
    (X : L → R) (w : Nat → Work R) (y : Nat → List (List R)) (hw : ∀ p, p < np → WorkOk (koff (first np)) (koff (first (p + 1)) - koff (first p)) (lam p).length (nsize p) (w p) ∧ Sized first dim p (y p)) :
    ∃ w' : Nat → Work R, (∀ p, p < np → WorkOk (koff (first np)) (koff (first (p + 1)) - koff (first p)) (lam p).length (nsize p) (w' p)) ∧
      Completes (world 0 np fun p => (P p).applyRinvGGtG (w p) ((lam p).map X) (y p))
        (finished 0 np fun p => some (localVectors first p (vectorOf dim (timesRt kdim koff Rm (timesW (koff (first np)) W (timesG (allMults np lam) g X)))), w' p)) := by
  by_cases hnone : ∀ p, p < np → (P p).factor = .none
  · refine ⟨w, fun p hp => (hw p hp).1, ?_⟩
    have hzero : koff (first np) = 0 := by
      cases hP.inverse with
      | ggt inv h => have := (h 0 hnp).1; rw [hnone 0 hnp] at this; cases this
      | lu invL invU A B h hW => have := (h 0 hnp).1; rw [hnone 0 hnp] at this; cases this
      | none h0 h => exact h0
    rw [world_congr (q := fun p => .ret (some (localVectors first p (vectorOf dim (timesRt kdim koff Rm (timesW (koff (first np)) W (timesG (allMults np lam) g X)))), w p))) (by
      intro p _ hp
      unfold Projector.applyRinvGGtG
      rw [hnone p hp]
      dsimp only
      congr 3
      unfold localVectors
      conv_lhs => rw [vectors_mk _ (y p) (hw p hp).2.1]
      unfold mk
      rw [List.map_map]
      apply List.map_congr_left
      intro j hj
      have hj := List.mem_range.1 hj
      show zeros ((y p).getD j []) = _
      unfold zeros vectorOf
      rw [List.map_const', (hw p hp).2.2 j hj]
      have : ∀ i, timesRt kdim koff Rm (timesW (koff (first np)) W (timesG (allMults np lam) g X)) (first p + j) i = 0 := by
        intro i
        have h1 := koff_mono hK (show first p + j + 1 ≤ first np by have := first_mono H.mono (show p + 1 ≤ np from hp); omega)
        rw [hK.step] at h1
        unfold timesRt
        rw [show kdim (first p + j) = 0 by omega, range_zero, sum_empty]
      rw [List.map_congr_left fun i _ => this i, List.map_const', List.length_range])]
    exact world_ret _ _ _
  · refine ⟨fun p => ⟨mk (koff (first np)) (timesG (allMults np lam) g X), mk (koff (first (p + 1)) - koff (first p)) fun r => timesW (koff (first np)) W (timesG (allMults np lam) g X) (koff (first p) + r), (w p).Fx, (w p).mid, (w p).bufs⟩,
      fun p hp => ⟨mk_length _ _, mk_length _ _, (hw p hp).1.Fx, (hw p hp).1.mid, (hw p hp).1.bufs⟩, ?_⟩
    have hfac : ∀ p, p < np → (P p).factor ≠ .none := by
      intro p hp
      cases hP.inverse with
      | ggt inv h => rw [(h p hp).1]; exact fun h => by cases h
      | lu invL invU A B h hW => rw [(h p hp).1]; exact fun h => by cases h
      | none h0 h => exact absurd h hnone
    rw [world_congr (q := fun p => andThen ((P p).applyG ((lam p).map X) (w p).Gx) fun Gx =>
        andThen ((P p).applyInvGGt (w p).mid Gx (w p).iGGtGx) fun z =>
          orFail (applyR (P p).Rs (P p).offsets z (y p)) fun y => .ret (some (y, (⟨Gx, z, (w p).Fx, (w p).mid, (w p).bufs⟩ : Work R)))) (by
      intro p _ hp
      unfold Projector.applyRinvGGtG
      have := hfac p hp
      cases h : (P p).factor with
      | ggt _ => rfl
      | lu _ _ => rfl
      | none => exact absurd h this)]
    refine world_andThen _ (C66_applyG H hnp hP X (fun p => (w p).Gx) fun p hp => (hw p hp).1.Gx) ?_
    refine world_andThen _ (C66_applyInvGGt hnp hP (timesG (allMults np lam) g X) (fun p => (w p).mid) (fun p => (w p).iGGtGx) (fun p hp => (hw p hp).1.mid) fun p hp => (hw p hp).1.iGGtGx) ?_
    rw [world_orFail _ _ _ (fun p hp => applyR_spec hK hp (timesW (koff (first np)) W (timesG (allMults np lam) g X)) (y p) (hw p hp).2)]
    exact world_ret _ _ _

/-! ### The right-hand side `e` -/

theorem timesR_at (hK : Kernels np first dim kdim koff Rm P) {nd d r : Nat} (hd : d < nd) (hr : r < kdim d) (f : Nat → Nat → R) :
    timesR nd dim kdim koff Rm f (koff d + r) = ∑ i ∈ range (dim d), Rm d r i * f d i := by
  unfold timesR
  rw [sum_eq_single d, sum_eq_single r, if_pos rfl]
  · intro r' _ h
    rw [if_neg (by omega)]
  · intro h
    exact absurd (mem_range.2 hr) h
  · intro d' _ h
    apply sum_eq_zero
    intro r' hr'
    have := mem_range.1 hr'
    rw [if_neg]
    intro e
    rcases Nat.lt_or_gt_of_ne h with h | h
    · have h1 := koff_mono hK (show d' + 1 ≤ d from h)
      rw [hK.step] at h1
      omega
    · have h1 := koff_mono hK (show d + 1 ≤ d' from h)
      rw [hK.step] at h1
      omega
  · intro h
    exact absurd (mem_range.2 hd) h

theorem denseApplyAt_spec {A : Dense R} {M : Nat → Nat → R} (hA : Stored A.nrows A.ncols A.vals M) (α : R) {x : List R} (hx : x.length = A.ncols) {yoff : Nat} {y : List R} (hy : yoff + A.nrows ≤ y.length) :
    denseApplyAt A α x yoff y = some (mk y.length fun i => if yoff ≤ i ∧ i < yoff + A.nrows then α * ∑ c ∈ range A.ncols, M (i - yoff) c * x.getD c 0 else y.getD i 0) := by
  unfold denseApplyAt
  rw [write_loop A.nrows y yoff hy _ (fun r => α * ∑ c ∈ range A.ncols, M r c * x.getD c 0)]
  intro r hr f
  simp only [Option.bind_eq_bind]
  rw [sum_loop A.ncols (fun c => M r c * x.getD c 0) _ (by
    intro c hc s
    rw [hA r hr c hc, Option.bind_some, getD_get (show c < x.length by omega), Option.bind_some]), Option.bind_some, wr_mk _ _ (by omega), Nat.add_comm]

/-- The part of `e` of the process `p`. -/
theorem kernelRhs_spec (hm : ∀ p, first p ≤ first (p + 1)) (hK : Kernels np first dim kdim koff Rm P) {p : Nat} (hp : p < np) (f : Nat → Nat → R) (goffsets : List Nat)
    (hg : ∀ j, j < first (p + 1) - first p → goffsets[j]? = some (koff (first p + j))) (e : List R) (he : e.length = koff (first np)) :
    kernelRhs (P p).Rs goffsets (localVectors first p (vectorOf dim f)) e =
      some (mk (koff (first np)) fun i => if koff (first p) ≤ i ∧ i < koff (first p) + (koff (first (p + 1)) - koff (first p)) then -timesR (first np) dim kdim koff Rm f i else e.getD i 0) := by
  have hend := koff_mono hK (first_mono hm (show p + 1 ≤ np from hp))
  have hpp := first_mono hm (show p + 1 ≤ np from hp)
  have hfp := hm p
  unfold kernelRhs
  rw [(hK.count p hp).1]
  obtain ⟨s, e1, hs⟩ := forLoop_inv (Nat.zero_le (first (p + 1) - first p)) e (fun d e => do
      let A ← (P p).Rs[d]?
      let off ← goffsets[d]?
      let fd ← (localVectors first p (vectorOf dim f))[d]?
      denseApplyAt A (-1) fd off e)
    (fun j s => s = mk (koff (first np)) fun i => if koff (first p) ≤ i ∧ i < koff (first p + j) then -timesR (first np) dim kdim koff Rm f i else e.getD i 0)
    (by
      conv_lhs => rw [mk_of_length e 0]
      rw [he]
      apply mk_congr
      intro i _
      rw [Nat.add_zero, if_neg (by omega)]) (by
    intro j _ hj s hs
    refine ⟨_, ?_, rfl⟩
    simp only [Option.bind_eq_bind]
    have hjl : j < (P p).Rs.length := by rw [(hK.count p hp).1]; exact hj
    obtain ⟨h1, h2, h3⟩ := hK.mats p hp j _ (List.getElem?_eq_getElem hjl)
    have hle := koff_mono hK (show first p + j + 1 ≤ first np by omega)
    have hge := koff_mono hK (show first p ≤ first p + j by omega)
    rw [hK.step] at hle
    have hf : (localVectors first p (vectorOf dim f))[j]? = some (vectorOf dim f (first p + j)) := by
      unfold localVectors
      rw [mk_get _ hj]
    rw [List.getElem?_eq_getElem hjl, Option.bind_some, hg j hj, Option.bind_some, hf, Option.bind_some, hs,
      denseApplyAt_spec h3 (-1) (by rw [vectorOf_length, h2]) (by rw [mk_length, h1]; omega), mk_length]
    congr 1
    apply mk_congr
    intro i hi
    rw [mk_getD _ _ hi, h1, h2, ← Nat.add_assoc, hK.step]
    by_cases c : koff (first p + j) ≤ i ∧ i < koff (first p + j) + kdim (first p + j)
    · rw [if_pos c, if_pos (by omega)]
      obtain ⟨r, rfl⟩ : ∃ r, i = koff (first p + j) + r := ⟨i - koff (first p + j), by omega⟩
      rw [timesR_at hK (by omega) (by omega), Nat.add_sub_cancel_left, neg_one_mul]
      congr 1
      apply sum_congr rfl
      intro k hk
      unfold vectorOf
      have := mk_getD (n := dim (first p + j)) (f (first p + j)) (0 : R) (mem_range.1 hk)
      unfold mk at this
      rw [this]
    · rw [if_neg c]
      by_cases c' : koff (first p) ≤ i ∧ i < koff (first p + j)
      · rw [if_pos c', if_pos (by omega)]
      · rw [if_neg c', if_neg (by omega)])
  rw [e1, hs]
  congr 1
  apply mk_congr
  intro i _
  have hge := koff_mono hK (hm p)
  rw [show first p + (first (p + 1) - first p) = first (p + 1) by omega, show koff (first p) + (koff (first (p + 1)) - koff (first p)) = koff (first (p + 1)) by omega]

/-- C66: every process gets all values of `e = - R f`. -/
theorem C66_rhs (h0 : first 0 = 0) (hm : ∀ p, first p ≤ first (p + 1)) (hnp : 0 < np) (hK : Kernels np first dim kdim koff Rm P) (t : Nat) (f : Nat → Nat → R) (goffsets : Nat → List Nat)
    (hg : ∀ p, p < np → ∀ j, j < first (p + 1) - first p → (goffsets p)[j]? = some (koff (first p + j))) (e : Nat → List R) (he : ∀ p, p < np → (e p).length = koff (first np)) :
    Completes (world 0 np fun p => orFail (kernelRhs (P p).Rs (goffsets p) (localVectors first p (vectorOf dim f)) (e p)) fun e => syncKernel t p np e (koff (first p)) (koff (first (p + 1)) - koff (first p)))
      (finished 0 np fun _ => some (mk (koff (first np)) fun k => -timesR (first np) dim kdim koff Rm f k)) := by
  rw [world_orFail _ _ _ fun p hp => kernelRhs_spec hm hK hp f (goffsets p) (hg p hp) (e p) (he p hp)]
  exact syncKernel_spec t hnp (roff := fun p => koff (first p)) (by rw [h0, hK.zero]) (fun p => koff_mono hK (hm p)) _ fun p i => (e p).getD i 0

/-! ### The algebra of the projector -/

section algebra
variable {n : Nat} {all : Finset L}

theorem gram_comm (k m : Nat) : gram all g k m = gram all g m k := by
  unfold gram
  exact sum_congr rfl fun l _ => mul_comm _ _

theorem timesG_timesGt (z : Nat → R) (k : Nat) : timesG all g (timesGt n g z) k = ∑ m ∈ range n, gram all g k m * z m := by
  unfold timesG timesGt gram
  simp only [mul_sum, sum_mul]
  rw [sum_comm]
  apply sum_congr rfl; intro m _; apply sum_congr rfl; intro l _; ring

/-- C66: the initial multipliers `Gᵀ W e` satisfy `G x = e`. -/
theorem C66_feasible (h : IsInverse n all g W) (e : Nat → R) {k : Nat} (hk : k < n) : timesG all g (timesGt n g (timesW n W e)) k = e k := by
  rw [timesG_timesGt]
  unfold timesW
  simp only [mul_sum]
  rw [sum_comm]
  have : ∀ m ∈ range n, ∑ i ∈ range n, gram all g k i * (W i m * e m) = (if k = m then 1 else 0) * e m := by
    intro m hm
    rw [← h k hk m (mem_range.1 hm), sum_mul]
    exact sum_congr rfl fun i _ => by ring
  rw [sum_congr rfl this]
  simp only [ite_mul, one_mul, zero_mul]
  rw [sum_ite_eq, if_pos (mem_range.2 hk)]

/-- C66: the projected vectors satisfy `G x = 0`. -/
theorem C66_kernel (h : IsInverse n all g W) (X : L → R) {k : Nat} (hk : k < n) : timesG all g (projected n all g W X) k = 0 := by
  have : timesG all g (projected n all g W X) k = timesG all g X k - timesG all g (coarse n all g W X) k := by
    unfold timesG projected
    rw [← sum_sub_distrib]
    exact sum_congr rfl fun l _ => by ring
  rw [this]
  unfold coarse
  rw [C66_feasible h _ hk, sub_self]

omit [DecidableEq L] in
/-- C66: a vector with `G x = 0` is not changed. -/
theorem C66_fixed {X : L → R} (hX : ∀ k, k < n → timesG all g X k = 0) (l : L) : projected n all g W X l = X l := by
  unfold projected coarse timesGt timesW
  rw [sum_eq_zero, sub_zero]
  intro k _
  rw [sum_eq_zero, mul_zero]
  intro m hm
  rw [hX m (mem_range.1 hm), mul_zero]

/-- C66: the projector is idempotent. -/
theorem C66_idempotent (h : IsInverse n all g W) (X : L → R) (l : L) : projected n all g W (projected n all g W X) l = projected n all g W X l :=
  C66_fixed (fun _ hk => C66_kernel h X hk) l

/-- The inverse of a symmetric matrix is symmetric. -/
theorem inverse_comm (h : IsInverse n all g W) {k m : Nat} (hk : k < n) (hm : m < n) : W k m = W m k := by
  have h1 : ∑ i ∈ range n, (∑ j ∈ range n, gram all g i j * W j k) * W i m = W k m := by
    rw [sum_congr rfl fun i hi => by rw [h i (mem_range.1 hi) k hk]]
    simp only [ite_mul, one_mul, zero_mul]
    rw [sum_ite_eq', if_pos (mem_range.2 hk)]
  have h2 : ∑ j ∈ range n, W j k * (∑ i ∈ range n, gram all g j i * W i m) = W m k := by
    rw [sum_congr rfl fun j hj => by rw [h j (mem_range.1 hj) m hm]]
    simp only [mul_ite, mul_one, mul_zero]
    rw [sum_ite_eq', if_pos (mem_range.2 hm)]
  rw [← h1, ← h2]
  simp only [mul_sum, sum_mul]
  rw [sum_comm]
  apply sum_congr rfl; intro j _; apply sum_congr rfl; intro i _
  rw [gram_comm i j]; ring

/-- C66: the projector is symmetric. -/
theorem C66_symmetric (h : IsInverse n all g W) (X Y : L → R) : ∑ l ∈ all, projected n all g W X l * Y l = ∑ l ∈ all, X l * projected n all g W Y l := by
  have hc : ∀ X Y : L → R, ∑ l ∈ all, coarse n all g W X l * Y l = ∑ k ∈ range n, ∑ m ∈ range n, W k m * timesG all g X m * timesG all g Y k := by
    intro X Y
    have : ∀ l ∈ all, coarse n all g W X l * Y l = ∑ k ∈ range n, timesW n W (timesG all g X) k * (g k l * Y l) := by
      intro l _
      unfold coarse timesGt
      rw [sum_mul]
      exact sum_congr rfl fun k _ => by ring
    rw [sum_congr rfl this, sum_comm]
    apply sum_congr rfl
    intro k _
    rw [← mul_sum]
    show timesW n W (timesG all g X) k * timesG all g Y k = _
    unfold timesW
    rw [sum_mul]
  have hs : ∑ l ∈ all, coarse n all g W X l * Y l = ∑ l ∈ all, X l * coarse n all g W Y l := by
    rw [sum_congr rfl fun l (_ : l ∈ all) => mul_comm (X l) (coarse n all g W Y l), hc, hc, sum_comm]
    apply sum_congr rfl; intro k hk; apply sum_congr rfl; intro m hm
    rw [inverse_comm h (mem_range.1 hm) (mem_range.1 hk)]; ring
  unfold projected
  simp only [sub_mul, mul_sub, sum_sub_distrib, hs]

end algebra

/-! ### Example: three processes with one domain each, the domain 1 has the kernel vector (1, 1) -/

/-- `G = (1, -1)`. -/
def exampleG (_ l : Nat) : Rat := if l = 7 then 1 else -1

/-- The offset of the kernels of a domain. -/
def exampleKoff (d : Nat) : Nat := if d ≤ 1 then 0 else 1

/-- The projector on the processes. -/
def exampleProjector (p : Nat) : Projector Rat :=
  { rank := p, size := 3, tag := 5, nb := [[1, 2], [0, 2], [0, 1]].getD p [], nmap := [[0, 1, 1, 0], [0, 1, 1, 0, 1, 2, 1, 1], [0, 1, 1, 1]].getD p [],
    li := localIntervals ([[(0, 1)], [(1, 1)], [(1, 0)]].getD p []), threads := 2, dist := [[0, 0, 0], [0, 1, 1], [0, 0, 0]].getD p [], roffset := [0, 0, 1].getD p 0, rsize := [0, 1, 0].getD p 0, total := 1,
    G := [⟨0, 1, [0], [], []⟩, ⟨1, 2, [0, 2], [0, 1], [1, -1]⟩, ⟨0, 1, [0], [], []⟩].getD p ⟨0, 0, [0], [], []⟩, factor := .ggt ([[], [1 / 2], []].getD p []),
    Rs := [[⟨0, 2, []⟩], [⟨1, 2, [1, 1]⟩], [⟨0, 2, []⟩]].getD p [], offsets := [0] }

theorem example_configured : Configured 3 id (fun p => [[1, 2], [0, 2], [0, 1]].getD p []) (fun p => [[7], [7, 8], [8]].getD p []) (fun l => if l = 7 then [0, 1] else [1, 2]) 5 (fun p => exampleKoff (id p))
    (fun p => [[0, 1, 1, 0], [0, 1, 1, 0, 1, 2, 1, 1], [0, 1, 1, 1]].getD p []) exampleG (fun _ _ => 1 / 2) exampleProjector := by
  have hc : ∀ p, p < 3 → p = 0 ∨ p = 1 ∨ p = 2 := by omega
  constructor
  · refine ⟨rfl, ?_, ?_⟩
    · intro p
      show exampleKoff p ≤ exampleKoff (p + 1)
      unfold exampleKoff
      split <;> split <;> omega
    · intro p hp k h1 h2 l hl hn
      rcases hc p hp with rfl | rfl | rfl
      · simp [exampleKoff] at h2
      · obtain ⟨q, hq, hlq⟩ := mem_allMults.1 hl
        rcases hc q hq with rfl | rfl | rfl <;> simp at hlq hn <;> omega
      · simp [exampleKoff] at h1 h2
        omega
  · intro p _; rfl
  · intro p _; rfl
  · intro p _; rfl
  · intro p _; rfl
  · intro p _; rfl
  · intro p hp
    refine ⟨[[(0, 1)], [(1, 1)], [(1, 0)]].getD p [], ?_, rfl⟩
    rcases hc p hp with rfl | rfl | rfl
    · exact ⟨[([], [7])], by decide, by decide, by decide⟩
    · exact ⟨[([7], [8])], by decide, by decide, by decide⟩
    · exact ⟨[([8], [])], by decide, by decide, by decide⟩
  · intro p hp
    refine ⟨by show 0 < 2; omega, 1, ?_⟩
    rcases hc p hp with rfl | rfl | rfl <;> decide
  · intro p hp; rcases hc p hp with rfl | rfl | rfl <;> rfl
  · intro p hp; rcases hc p hp with rfl | rfl | rfl <;> rfl
  · intro p hp; rfl
  · intro p hp
    rcases hc p hp with rfl | rfl | rfl <;> exact ⟨by decide, by decide, by decide, by decide, by decide, by decide⟩
  · intro p hp; rcases hc p hp with rfl | rfl | rfl <;> rfl
  · intro p hp; rcases hc p hp with rfl | rfl | rfl <;> rfl
  · intro p hp r hr k l hk
    rcases hc p hp with rfl | rfl | rfl
    · simp [exampleKoff] at hr
    · simp [exampleKoff] at hr
      subst hr
      rcases k with _ | _ | k <;> simp at hk <;> subst hk <;> decide +kernel
    · simp [exampleKoff] at hr
  · refine .ggt (fun p => [[], [1 / 2], []].getD p []) ?_
    intro p hp
    refine ⟨rfl, ?_⟩
    rcases hc p hp with rfl | rfl | rfl <;> intro r hr c hcc <;> simp [exampleKoff] at hr hcc
    subst hr; subst hcc
    rfl

theorem example_kernels : Kernels 3 id (fun _ => 2) (fun d => if d = 1 then 1 else 0) exampleKoff (fun _ _ _ => 1) exampleProjector := by
  have hc : ∀ p, p < 3 → p = 0 ∨ p = 1 ∨ p = 2 := by omega
  refine ⟨rfl, ?_, ?_, ?_, ?_⟩
  · intro d
    unfold exampleKoff
    split <;> split <;> split <;> omega
  · intro p hp; rcases hc p hp with rfl | rfl | rfl <;> exact ⟨rfl, rfl⟩
  · intro p hp j hj
    have : j = 0 := by simp at hj; omega
    subst this
    rfl
  · intro p hp j A hA
    rcases hc p hp with rfl | rfl | rfl <;> rcases j with _ | j <;> simp [exampleProjector] at hA <;> subst hA
    · exact ⟨rfl, rfl, fun r hr => absurd hr (by show ¬r < 0; omega)⟩
    · refine ⟨rfl, rfl, fun r hr c hcc => ?_⟩
      have : r = 0 := by have : r < 1 := hr; omega
      subst this
      have : c = 0 ∨ c = 1 := by have : c < 2 := hcc; omega
      rcases this with rfl | rfl <;> rfl
    · exact ⟨rfl, rfl, fun r hr => absurd hr (by show ¬r < 0; omega)⟩

theorem example_inverse : IsInverse 1 (allMults 3 fun p => [[7], [7, 8], [8]].getD p []) exampleG (fun _ _ => 1 / 2) := by
  intro k hk m hm
  have : k = 0 := by omega
  subst this
  have : m = 0 := by omega
  subst this
  decide +kernel

theorem example_synchronizes : Synchronizes Rat 3 (fun p => [[1, 2], [0, 2], [0, 1]].getD p []) (fun p => [[7], [7, 8], [8]].getD p [])
    (fun p => [[0, 1, 1, 0], [0, 1, 1, 0, 1, 2, 1, 1], [0, 1, 1, 1]].getD p []) (fun p => [[1, 0], [1, 1], [0, 1]].getD p []) := by
  obtain ⟨nmap, nsize, h1, h2⟩ := synchronizes (R := Rat) example_shared _ example_describes
  have hc : ∀ p, p < 3 → p = 0 ∨ p = 1 ∨ p = 2 := by omega
  have e : ∀ p, p < 3 → nmap p = [[0, 1, 1, 0], [0, 1, 1, 0, 1, 2, 1, 1], [0, 1, 1, 1]].getD p [] ∧ nsize p = [[1, 0], [1, 1], [0, 1]].getD p [] := by
    intro p hp
    have h := h1 p hp
    have h' : dualMapSet (decOf id (fun p => [[1, 2], [0, 2], [0, 1]].getD p []) p) ([[1, 2, 0, 1], [1, 2, 0, 1, 1, 2, 1, 2], [1, 2, 1, 2]].getD p []) =
        some ([[0, 1, 1, 0], [0, 1, 1, 0, 1, 2, 1, 1], [0, 1, 1, 1]].getD p [], [[1, 0], [1, 1], [0, 1]].getD p []) := by
      rcases hc p hp with rfl | rfl | rfl <;> decide
    rw [h'] at h
    have := Option.some.inj h
    exact ⟨(congrArg Prod.fst this).symm, (congrArg Prod.snd this).symm⟩
  intro t v b hv hb
  obtain ⟨b', k1, k2⟩ := h2 t v b hv fun p hp => by rw [(e p hp).2]; exact hb p hp
  refine ⟨b', fun p hp => by have := k1 p hp; rw [(e p hp).2] at this; exact this, ?_⟩
  rw [world_congr (q := fun p => syncDual t ([[1, 2], [0, 2], [0, 1]].getD p []) (nmap p) (([[7], [7, 8], [8]].getD p []).map (v p)) (b p)) fun p _ hp => by rw [(e p hp).1]]
  exact k2

example := C66_apply example_shared (by decide) example_synchronizes example_configured (fun l => if l = 7 then 3 else 4)
example := C66_applyT example_shared (by decide) example_synchronizes example_configured (fun l => if l = 7 then 3 else 4)
example := C66_coarse example_shared (by decide) example_synchronizes example_configured (fun l => if l = 7 then 3 else 4)
example := C66_initial (by decide) example_synchronizes example_configured fun k => (k : Rat) + 1
example := C66_kernels (nsize := fun p => [[1, 0], [1, 1], [0, 1]].getD p []) example_shared (by decide) example_kernels example_configured (fun l => if l = 7 then 3 else 4)
example := C66_rhs rfl (fun p => Nat.le_succ p) (by decide) example_kernels 5 (fun d i => d + 3 * i) (fun p => [exampleKoff p])
example := C66_feasible example_inverse (fun k => (k : Rat) + 1) (k := 0) (by decide)
example := C66_kernel example_inverse (fun l => if l = 7 then 3 else 4) (k := 0) (by decide)
example := C66_symmetric example_inverse (fun l => if l = 7 then 3 else 4) fun l => if l = 7 then 1 else 0

/-- The projection of (3, 4) is (7/2, 7/2). -/
example : projected 1 (allMults 3 fun p => [[7], [7, 8], [8]].getD p []) exampleG (fun _ _ => 1 / 2) (fun l => if l = 7 then 3 else 4) 7 = 7 / 2 ∧
    projected 1 (allMults 3 fun p => [[7], [7, 8], [8]].getD p []) exampleG (fun _ _ => 1 / 2) (fun l => if l = 7 then 3 else 4) 8 = 7 / 2 := by decide +kernel

end Verif.Feti
