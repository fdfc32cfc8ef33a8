import Verif.Model.DualMap
import Verif.Spec.Dual
import Verif.Proof.Gluing
import Verif.Prop.Gluing
/-! Lemmas for the map of shared multipliers and the synchronization of dual vectors (C61). -/
namespace Verif.Feti

open Verif.Dual

/-! ### Arrays given by functions -/

/-- The array of the values of `f`. -/
def mk {A : Type} (n : Nat) (f : Nat → A) : List A := (List.range n).map f

/-- `f` with a new value at `k`. -/
def upd {A : Type} (f : Nat → A) (k : Nat) (v : A) : Nat → A := fun n => if n = k then v else f n

theorem mk_length {A : Type} (n : Nat) (f : Nat → A) : (mk n f).length = n := by unfold mk; simp

theorem mk_get {A : Type} {n k : Nat} (f : Nat → A) (h : k < n) : (mk n f)[k]? = some (f k) := by
  unfold mk; rw [List.getElem?_map, List.getElem?_range h]; rfl

theorem mk_congr {A : Type} {n : Nat} {f g : Nat → A} (h : ∀ k, k < n → f k = g k) : mk n f = mk n g :=
  List.map_congr_left fun k hk => h k (List.mem_range.1 hk)

theorem wr_mk {A : Type} {n k : Nat} (f : Nat → A) (v : A) (h : k < n) : wr (mk n f) k v = some (mk n (upd f k v)) := by
  rw [wr_eq_some (by rw [mk_length]; exact h)]
  congr 1
  apply List.ext_getElem?
  intro i
  rw [Verif.Csx.getElem?_set' _ _ _ _ (by rw [mk_length]; exact h)]
  by_cases hi : i < n
  · rw [mk_get _ hi, mk_get _ hi]
    unfold upd
    by_cases hk : k = i
    · rw [if_pos hk, if_pos hk.symm]
    · rw [if_neg hk, if_neg (fun e => hk e.symm)]
  · rw [if_neg (by omega), List.getElem?_eq_none (by rw [mk_length]; omega), List.getElem?_eq_none (by rw [mk_length]; omega)]

theorem mk_of_length {A : Type} (l : List A) (d : A) : l = mk l.length fun k => l.getD k d := by
  apply List.ext_getElem?
  intro i
  by_cases hi : i < l.length
  · rw [mk_get _ hi, List.getD_eq_getElem?_getD, List.getElem?_eq_getElem hi]; rfl
  · rw [List.getElem?_eq_none (by omega), List.getElem?_eq_none (by rw [mk_length]; omega)]

/-! ### `noffset` -/

theorem noffsetLoop_spec (D : Decomposition) (d n : Nat) (hn : n < D.neighbors.length) (hlen : D.neighbors.length ≤ D.neighDomain.length)
    (hle : ∀ m x, m ≤ n → D.neighDomain[m]? = some x → x ≤ d) (hgt : ∀ x, n + 1 < D.neighbors.length → D.neighDomain[n + 1]? = some x → d < x) :
    ∀ fuel m, m ≤ n → n ≤ m + fuel → D.noffsetLoop d fuel m = some n := by
  intro fuel
  induction fuel with
  | zero => intro m h1 h2; unfold Decomposition.noffsetLoop; congr 1; omega
  | succ fuel ih =>
      intro m h1 h2
      unfold Decomposition.noffsetLoop
      by_cases hm : m = n
      · subst hm
        split
        · rename_i h
          obtain ⟨x, hx⟩ : ∃ x, D.neighDomain[m + 1]? = some x := ⟨_, List.getElem?_eq_getElem (by omega)⟩
          have := hgt x h hx
          simp only [hx, Option.bind_eq_bind, Option.bind_some]
          rw [if_neg (by omega)]
        · rfl
      · rw [if_pos (by omega)]
        obtain ⟨x, hx⟩ : ∃ x, D.neighDomain[m + 1]? = some x := ⟨_, List.getElem?_eq_getElem (by omega)⟩
        have := hle (m + 1) x (by omega) hx
        simp only [hx, Option.bind_eq_bind, Option.bind_some]
        rw [if_pos this]
        exact ih (m + 1) (by omega) (by omega)

/-! ### The neighbours of a group -/

/-- The last neighbour, `-1` if there is none. -/
def lastI (acc : List Nat) : Int := match acc.getLast? with | none => -1 | some x => (x : Int)

/-- One domain. -/
def pushNeigh (D : Decomposition) (off : Nat → Nat) (acc : List Nat) (d : Nat) : List Nat :=
  if D.ismy d then acc else if lastI acc < (off d : Int) then acc ++ [off d] else acc

/-- The neighbours of a list of domains. -/
def neighsOf (D : Decomposition) (off : Nat → Nat) (ds : List Nat) : List Nat := ds.foldl (pushNeigh D off) []

theorem lastI_append (acc : List Nat) (x : Nat) : lastI (acc ++ [x]) = (x : Int) := by unfold lastI; simp

theorem le_lastI {acc : List Nat} (h : acc.Pairwise (· < ·)) {x : Nat} (hx : x ∈ acc) : (x : Int) ≤ lastI acc := by
  induction acc using List.reverseRecOn with
  | nil => cases hx
  | append_singleton acc y _ =>
      rw [lastI_append]
      rw [List.pairwise_append] at h
      rcases List.mem_append.1 hx with h1 | h1
      · have := h.2.2 x h1 y (by simp); omega
      · simp at h1; subst h1; exact Int.le_refl _

theorem pushNeigh_sorted {D : Decomposition} {off : Nat → Nat} {acc : List Nat} (h : acc.Pairwise (· < ·)) (d : Nat) : (pushNeigh D off acc d).Pairwise (· < ·) := by
  unfold pushNeigh
  split
  · exact h
  · split
    · rename_i hl
      rw [List.pairwise_append]
      refine ⟨h, List.pairwise_singleton _ _, ?_⟩
      intro x hx y hy
      simp at hy; subst hy
      have := le_lastI h hx; omega
    · exact h

theorem foldl_push_sorted {D : Decomposition} {off : Nat → Nat} (ds : List Nat) : ∀ {acc : List Nat}, acc.Pairwise (· < ·) → (ds.foldl (pushNeigh D off) acc).Pairwise (· < ·) := by
  induction ds with
  | nil => intro acc h; exact h
  | cons d ds ih => intro acc h; exact ih (pushNeigh_sorted h d)

/-- For ordered domains the result has exactly the neighbours of the domains of other processes. -/
theorem mem_foldl_push {D : Decomposition} {off : Nat → Nat} (ds : List Nat) : ∀ {acc : List Nat}, acc.Pairwise (· < ·) →
    (ds.Pairwise fun d d' => D.ismy d = false → D.ismy d' = false → off d ≤ off d') → (∀ d ∈ ds, D.ismy d = false → lastI acc ≤ (off d : Int)) → ∀ n,
    n ∈ ds.foldl (pushNeigh D off) acc ↔ n ∈ acc ∨ ∃ d ∈ ds, D.ismy d = false ∧ off d = n := by
  induction ds with
  | nil => intro acc _ _ _ n; simp
  | cons d ds ih =>
      intro acc ha hp hl n
      rw [List.pairwise_cons] at hp
      rw [List.foldl_cons, ih (pushNeigh_sorted ha d) hp.2]
      · cases hm : D.ismy d with
        | true =>
            unfold pushNeigh
            rw [if_pos hm]
            simp [hm]
        | false =>
            have hd := hl d (List.mem_cons_self ..) hm
            unfold pushNeigh
            rw [if_neg (by simp [hm])]
            by_cases hlt : lastI acc < (off d : Int)
            · rw [if_pos hlt]
              simp only [List.mem_append, List.mem_cons, List.not_mem_nil, or_false, exists_eq_or_imp, hm, true_and]
              constructor
              · rintro ((h | h) | h)
                · exact Or.inl h
                · exact Or.inr (Or.inl h.symm)
                · exact Or.inr (Or.inr h)
              · rintro (h | h | h)
                · exact Or.inl (Or.inl h)
                · exact Or.inl (Or.inr h.symm)
                · exact Or.inr h
            · rw [if_neg hlt]
              simp only [List.mem_cons, exists_eq_or_imp, hm, true_and]
              have hmem : off d ∈ acc := by
                have he : lastI acc = (off d : Int) := by omega
                unfold lastI at he
                split at he
                · omega
                · rename_i x hx
                  have : x = off d := by omega
                  rw [← this]; exact List.mem_of_getLast? hx
              constructor
              · rintro (h | h)
                · exact Or.inl h
                · exact Or.inr (Or.inr h)
              · rintro (h | h | h)
                · exact Or.inl h
                · exact Or.inl (h ▸ hmem)
                · exact Or.inr h
      · intro d' hd' hm'
        have h1 := hl d' (List.mem_cons_of_mem _ hd') hm'
        unfold pushNeigh
        split
        · exact h1
        · rename_i hm
          split
          · rw [lastI_append]
            have := hp.1 d' hd' (by simpa using hm) hm'
            omega
          · exact h1

theorem mem_foldl_push_bound {D : Decomposition} {off : Nat → Nat} {m : Nat} (ds : List Nat) (h : ∀ d ∈ ds, D.ismy d = false → off d < m) : ∀ {acc : List Nat}, (∀ n ∈ acc, n < m) →
    ∀ n ∈ ds.foldl (pushNeigh D off) acc, n < m := by
  induction ds with
  | nil => intro acc ha; exact ha
  | cons d ds ih =>
      intro acc ha
      refine ih (fun d hd => h d (List.mem_cons_of_mem _ hd)) ?_
      intro n hn
      unfold pushNeigh at hn
      split at hn
      · exact ha n hn
      · rename_i hm
        split at hn
        · rcases List.mem_append.1 hn with h' | h'
          · exact ha n h'
          · simp at h'; subst h'
            exact h d (List.mem_cons_self ..) (by simpa using hm)
        · exact ha n hn

/-! ### One group -/

/-- The state of the loop over the domains. -/
def groupState (pre : List Nat) (nn : Nat) (base : Nat → Nat) (lambdas : Nat) (acc : List Nat) : List Nat × List Nat × Int :=
  (pre ++ acc.length :: acc, mk nn (fun n => base n + if n ∈ acc then lambdas else 0), lastI acc)

theorem groupDomain_spec {D : Decomposition} {off : Nat → Nat} {cmap : List Nat} {i d dom nn lambdas : Nat} (pre : List Nat) (base : Nat → Nat) {acc : List Nat}
    (hg : cmap[2 + i + d]? = some dom) (ho : D.ismy dom = false → D.noffset dom = some (off dom) ∧ off dom < nn) (ha : acc.Pairwise (· < ·)) :
    groupDomain D cmap i pre.length lambdas d (groupState pre nn base lambdas acc) = some (groupState pre nn base lambdas (pushNeigh D off acc dom)) := by
  unfold groupDomain pushNeigh
  simp only [hg, Option.bind_eq_bind, Option.bind_some]
  cases hm : D.ismy dom with
  | true => rfl
  | false =>
      obtain ⟨h1, h2⟩ := ho hm
      simp only [cond_false, h1, Option.bind_some, Bool.false_eq_true, if_false]
      by_cases hl : lastI acc < (off dom : Int)
      · rw [if_pos (show (groupState pre nn base lambdas acc).2.2 < _ from hl), if_pos hl]
        unfold groupState
        have e1 : (pre ++ acc.length :: acc) ++ [off dom] = pre ++ acc.length :: (acc ++ [off dom]) := by simp
        have e2 : (pre ++ acc.length :: (acc ++ [off dom]))[pre.length]? = some acc.length := by simp
        have e3 : wr (pre ++ acc.length :: (acc ++ [off dom])) pre.length (acc.length + 1) = some (pre ++ (acc ++ [off dom]).length :: (acc ++ [off dom])) := by
          rw [wr_eq_some (by simp)]
          simp
        have hn : off dom ∉ acc := by
          intro h
          have := le_lastI ha h; omega
        dsimp only
        rw [e1, e2, Option.bind_some, e3, Option.bind_some, mk_get _ h2, Option.bind_some, wr_mk _ _ h2, Option.bind_some, lastI_append]
        congr 3
        apply mk_congr
        intro k _
        unfold upd
        by_cases hk : k = off dom
        · subst hk; simp [hn]
        · simp [hk]
      · rw [if_neg (show ¬ (groupState pre nn base lambdas acc).2.2 < _ from hl), if_neg hl]

theorem groupDomains_spec {D : Decomposition} {off : Nat → Nat} {nn lambdas : Nat} (cpre cpost : List Nat) (x y : Nat) (pre : List Nat) (base : Nat → Nat) (ds : List Nat)
    (ho : ∀ d ∈ ds, D.ismy d = false → D.noffset d = some (off d) ∧ off d < nn) :
    forLoop 0 ds.length (groupState pre nn base lambdas []) (fun d s => groupDomain D (cpre ++ x :: y :: (ds ++ cpost)) cpre.length pre.length lambdas d s) =
      some (groupState pre nn base lambdas (neighsOf D off ds)) := by
  obtain ⟨s, e, hs⟩ := forLoop_inv (Nat.zero_le ds.length) (groupState pre nn base lambdas [])
    (fun d s => groupDomain D (cpre ++ x :: y :: (ds ++ cpost)) cpre.length pre.length lambdas d s)
    (fun k s => s = groupState pre nn base lambdas ((ds.take k).foldl (pushNeigh D off) [])) rfl (by
      intro k _ hk s hs
      subst hs
      have hd : ds[k]? = some ds[k] := List.getElem?_eq_getElem hk
      refine ⟨_, groupDomain_spec (off := off) (dom := ds[k]) pre base ?_ (ho _ (List.getElem_mem hk)) (foldl_push_sorted _ List.Pairwise.nil), ?_⟩
      · rw [List.getElem?_append_right (by omega), show 2 + cpre.length + k - cpre.length = k + 2 by omega, List.getElem?_cons_succ, List.getElem?_cons_succ, List.getElem?_append_left hk, hd]
      · rw [List.take_add_one, hd, Option.toList_some, List.foldl_append]; rfl)
  rw [e, hs, List.take_length]; rfl

/-! ### All groups -/

/-- The flat form of the groups. -/
def encode (gs : List (Nat × List Nat)) : List Nat := gs.flatMap fun g => g.1 :: g.2.length :: g.2

/-- The groups with their neighbours: `(begin, end, neighbours)`. -/
def nentries (D : Decomposition) (off : Nat → Nat) : List (Nat × List Nat) → Nat → List (Nat × Nat × List Nat)
  | [], _ => []
  | (n, ds) :: gs, o => if neighsOf D off ds = [] then nentries D off gs (o + n) else (o, o + n, neighsOf D off ds) :: nentries D off gs (o + n)

theorem nentries_cons (D : Decomposition) (off : Nat → Nat) (n : Nat) (ds : List Nat) (gs : List (Nat × List Nat)) (o : Nat) : nentries D off ((n, ds) :: gs) o =
    if neighsOf D off ds = [] then nentries D off gs (o + n) else (o, o + n, neighsOf D off ds) :: nentries D off gs (o + n) := rfl

/-- The flat form of the groups with their neighbours. -/
def encodeN (es : List (Nat × Nat × List Nat)) : List Nat := es.flatMap fun x => x.1 :: x.2.1 :: x.2.2.length :: x.2.2

/-- The positions of the multipliers shared with the neighbour `n`. -/
def posOf (es : List (Nat × Nat × List Nat)) (n : Nat) : List Nat := es.flatMap fun x => if n ∈ x.2.2 then List.range' x.1 (x.2.1 - x.1) else []

theorem groupLoop_spec {D : Decomposition} {off : Nat → Nat} {nn : Nat} : ∀ (gs : List (Nat × List Nat)) (cpre pre : List Nat) (base : Nat → Nat) (o fuel : Nat),
    (∀ g ∈ gs, ∀ d ∈ g.2, D.ismy d = false → D.noffset d = some (off d) ∧ off d < nn) → (encode gs).length ≤ fuel →
    groupLoop D (cpre ++ encode gs) fuel cpre.length (pre, mk nn base, o) =
      some (pre ++ encodeN (nentries D off gs o), mk nn fun n => base n + (posOf (nentries D off gs o) n).length) := by
  intro gs
  induction gs with
  | nil =>
      intro cpre pre base o fuel _ _
      have : (cpre ++ encode []).length = cpre.length := by simp [encode]
      cases fuel with
      | zero => unfold groupLoop; rw [if_neg (by omega)]; simp [encodeN, nentries, posOf]
      | succ fuel => unfold groupLoop; rw [if_neg (by omega)]; simp [encodeN, nentries, posOf]
  | cons g gs ih =>
      obtain ⟨n, ds⟩ := g
      intro cpre pre base o fuel ho hf
      have hen : encode ((n, ds) :: gs) = n :: ds.length :: (ds ++ encode gs) := by unfold encode; simp
      rw [hen] at hf ⊢
      simp only [List.length_cons, List.length_append] at hf
      cases fuel with
      | zero => omega
      | succ fuel =>
          unfold groupLoop
          rw [if_pos (by simp)]
          have hloop := groupDomains_spec (D := D) (off := off) (nn := nn) (lambdas := n) cpre (encode gs) n ds.length (pre ++ [o, o + n]) base ds (fun d hd => ho _ (List.mem_cons_self ..) d hd)
          have hstate : ((pre ++ [o, o + n]) ++ [0], mk nn base, (-1 : Int)) = groupState (pre ++ [o, o + n]) nn base n [] := by
            unfold groupState lastI; simp
          have hc : ((pre ++ [o, o + n]) ++ (neighsOf D off ds).length :: neighsOf D off ds)[(pre ++ [o, o + n]).length]? = some (neighsOf D off ds).length := by simp
          have hstep : groupStep D (cpre ++ n :: ds.length :: (ds ++ encode gs)) cpre.length (pre, mk nn base, o) =
              some (cpre.length + ds.length + 2, (if (neighsOf D off ds).length = 0 then pre else (pre ++ [o, o + n]) ++ (neighsOf D off ds).length :: neighsOf D off ds),
                mk nn (fun k => base k + if k ∈ neighsOf D off ds then n else 0), o + n) := by
            unfold groupStep
            have g1 : (cpre ++ n :: ds.length :: (ds ++ encode gs))[cpre.length]? = some n := by simp
            have g2 : (cpre ++ n :: ds.length :: (ds ++ encode gs))[cpre.length + 1]? = some ds.length := by simp
            simp only [g1, g2, Option.bind_eq_bind, Option.bind_some, hstate, hloop]
            unfold groupState
            simp only [hc, Option.bind_some]
            congr 3
            by_cases hz : (neighsOf D off ds).length = 0
            · rw [if_pos hz, if_pos hz, List.length_eq_zero_iff.1 hz]
              simp
            · rw [if_neg hz, if_neg hz]
          rw [hstep]
          simp only [Option.bind_eq_bind, Option.bind_some]
          have hcm : cpre ++ n :: ds.length :: (ds ++ encode gs) = (cpre ++ n :: ds.length :: ds) ++ encode gs := by simp
          rw [hcm, show cpre.length + ds.length + 2 = (cpre ++ n :: ds.length :: ds).length by simp; omega,
            ih _ _ _ (o + n) fuel (fun g hg => ho g (List.mem_cons_of_mem _ hg)) (by omega)]
          simp only [nentries_cons]
          by_cases hz : neighsOf D off ds = []
          · rw [if_pos (by rw [hz]; rfl), if_pos hz]
            simp [hz]
          · rw [if_neg (by rw [List.length_eq_zero_iff]; exact hz), if_neg hz]
            congr 2
            · unfold encodeN; simp
            · apply mk_congr
              intro k _
              show _ = base k + (posOf ((o, o + n, neighsOf D off ds) :: nentries D off gs (o + n)) k).length
              unfold posOf
              rw [List.flatMap_cons, List.length_append]
              have : (if k ∈ neighsOf D off ds then List.range' o (o + n - o) else []).length = if k ∈ neighsOf D off ds then n else 0 := by
                split <;> simp
              dsimp only at this ⊢
              omega

theorem dualMapSet_spec {D : Decomposition} {off : Nat → Nat} (gs : List (Nat × List Nat))
    (ho : ∀ g ∈ gs, ∀ d ∈ g.2, D.ismy d = false → D.noffset d = some (off d) ∧ off d < D.neighbors.length) :
    dualMapSet D (encode gs) = some (encodeN (nentries D off gs 0), mk D.neighbors.length fun n => (posOf (nentries D off gs 0) n).length) := by
  unfold dualMapSet
  have h0 : List.replicate D.neighbors.length 0 = mk D.neighbors.length fun _ => 0 := by
    apply List.ext_getElem?
    intro i
    by_cases hi : i < D.neighbors.length
    · rw [mk_get _ hi, List.getElem?_replicate, if_pos hi]
    · rw [List.getElem?_eq_none (by simp; omega), List.getElem?_eq_none (by rw [mk_length]; omega)]
  rw [h0]
  have := groupLoop_spec (D := D) (off := off) (nn := D.neighbors.length) gs [] [] (fun _ => 0) 0 (encode gs).length ho (Nat.le_refl _)
  simpa using this

/-! ### The loops over `nmap` -/

theorem walk_spec {σ : Type} (f : Nat → Nat → Nat → σ → Option σ) : ∀ (es : List (Nat × Nat × List Nat)) (pre : List Nat) (fuel : Nat) (s : σ), (encodeN es).length ≤ fuel →
    walk (pre ++ encodeN es) f fuel pre.length s = (es.flatMap fun x => x.2.2.map fun n => (x.1, x.2.1, n)).foldlM (fun s x => f x.1 x.2.1 x.2.2 s) s := by
  intro es
  induction es with
  | nil =>
      intro pre fuel s _
      have : (pre ++ encodeN []).length = pre.length := by simp [encodeN]
      cases fuel with
      | zero => unfold walk; rw [if_neg (by omega)]; rfl
      | succ fuel => unfold walk; rw [if_neg (by omega)]; rfl
  | cons x es ih =>
      obtain ⟨b, e, ns⟩ := x
      intro pre fuel s hf
      have hen : encodeN ((b, e, ns) :: es) = b :: e :: ns.length :: (ns ++ encodeN es) := by unfold encodeN; simp
      rw [hen] at hf ⊢
      simp only [List.length_cons, List.length_append] at hf
      cases fuel with
      | zero => omega
      | succ fuel =>
          unfold walk
          rw [if_pos (by simp)]
          have g1 : (pre ++ b :: e :: ns.length :: (ns ++ encodeN es))[pre.length]? = some b := by simp
          have g2 : (pre ++ b :: e :: ns.length :: (ns ++ encodeN es))[pre.length + 1]? = some e := by simp
          have g3 : (pre ++ b :: e :: ns.length :: (ns ++ encodeN es))[pre.length + 2]? = some ns.length := by simp
          simp only [g1, g2, g3, Option.bind_eq_bind, Option.bind_some]
          rw [forLoop_congr s _ (fun n s => ns[n]?.bind fun ni => f b e ni s) (by
            intro n s _ hn
            rw [List.getElem?_append_right (by omega), show pre.length + 3 + n - pre.length = n + 3 by omega, List.getElem?_cons_succ, List.getElem?_cons_succ, List.getElem?_cons_succ,
              List.getElem?_append_left hn]), loop_list, List.flatMap_cons, List.foldlM_append, List.foldlM_map]
          show _ = Option.bind _ _
          congr 1
          funext s'
          have hcm : pre ++ b :: e :: ns.length :: (ns ++ encodeN es) = (pre ++ b :: e :: ns.length :: ns) ++ encodeN es := by simp
          rw [hcm, show pre.length + ns.length + 3 = (pre ++ b :: e :: ns.length :: ns).length by simp; omega]
          exact ih _ fuel s' (by omega)

end Verif.Feti
