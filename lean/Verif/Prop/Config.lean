import Verif.Proof.Config
/-!
C35: lookup and assignments of configuration parameters.
-/
namespace Verif.Config

variable {V : Type}

/-- C35: after every history the lookup finds the first parameter of the object with the name regardless of letter case (in particular the first registered one if nothing was dropped or
moved). -/
theorem C35_lookup (low : Char → Nat) (mem : List V) (hist : List (Op V)) (st : State V) (h : run low mem hist = some st) (name : Str) :
    getNamed low st.heap name st.parameters = some (find low hist name) ∧
      (∀ name', SameName low name name' → find low hist name' = find low hist name) ∧
      ((∀ op ∈ hist, (∀ p, op ≠ .drop p) ∧ (∀ p, op ≠ .additional p) ∧ ∀ n, op ≠ .moveLast n) →
        ∀ p r, (registered hist)[p]? = some r → SameName low name r.name → (∀ (q : Nat) r', q < p → (registered hist)[q]? = some r' → ¬ SameName low name r'.name) → find low hist name = some p) := by
  have hd := run_describes low mem hist st h
  refine ⟨hd.find name, ?_, ?_⟩
  · intro name' hn
    unfold find
    congr 1
    funext p
    unfold hasName
    split
    · refine decide_eq_decide.2 ⟨fun h => hn.trans h, fun h => Eq.trans (Eq.symm hn) h⟩
    · rfl
  · intro hops p r hr hs hfirst
    have horder : ∀ hist : List (Op V), (∀ op ∈ hist, (∀ p, op ≠ .drop p) ∧ (∀ p, op ≠ .additional p) ∧ ∀ n, op ≠ .moveLast n) → order low hist = List.range (registered hist).length := by
      intro hist
      induction hist using List.reverseRecOn with
      | nil => intro _; rfl
      | append_singleton hist op ih =>
        intro hops
        have hi := ih fun op hop => hops op (List.mem_append_left _ hop)
        have ho := hops op (List.mem_append_right _ List.mem_cons_self)
        rw [order_append, registered_append, hi]
        cases op with
        | register n v f => simp [orderStep, registered, List.range_succ]
        | additional p => exact absurd rfl (ho.2.1 p)
        | drop p => exact absurd rfl (ho.1 p)
        | moveLast n => exact absurd rfl (ho.2.2 n)
        | listen p id => simp [orderStep, registered]
        | listenGet id => simp [orderStep, registered]
        | set n v => simp [orderStep, registered]
    unfold find
    rw [horder hist hops, List.find?_range_eq_some]
    have hp : p < (registered hist).length := by
      rcases Nat.lt_or_ge p (registered hist).length with h | h
      · exact h
      · rw [List.getElem?_eq_none h] at hr; cases hr
    refine ⟨?_, List.mem_range.2 hp, ?_⟩
    · unfold hasName
      rw [hr]
      simpa using hs
    · intro q hq
      unfold hasName
      rw [List.getElem?_eq_getElem (by omega)]
      simpa using hfirst q _ hq (List.getElem?_eq_getElem (by omega))

/-- C35: an assignment changes the variable of the found parameter only (to what its parser says), and exactly these listeners are called, in this order: those of accesses to the object with
the name of the parameter, and, when the value is accepted, those of the parameter with the value, in the order of their registration.  Assignments to unknown names change nothing. -/
theorem C35_set (low : Char → Nat) (mem : List V) (hist : List (Op V)) (st st' : State V) (name value : Str) (h : run low mem hist = some st)
    (h' : run low mem (hist ++ [.set name value]) = some st') :
    match find low hist name with
    | none => st' = st
    | some p => ∃ r x, (registered hist)[p]? = some r ∧ st.mem[r.var]? = some x ∧ st'.mem[r.var]? = some (r.parse x value).1 ∧
        (∀ i, i ≠ r.var → st'.mem[i]? = st.mem[i]?) ∧
        st'.trace = st.trace ++ (getListeners hist).map (fun l => (l, r.name)) ++ (if (r.parse x value).2 then (listeners p hist).map (fun l => (l, value)) else []) := by
  have hd := run_describes low mem hist st h
  rw [run_append, h] at h'
  simp only [Option.bind_some, step, getParameter, Option.bind_eq_bind] at h'
  rw [hd.find name] at h'
  simp only [Option.bind_some] at h'
  cases hf : find low hist name with
  | none =>
    rw [hf] at h'
    simp only [Option.bind_some] at h'
    exact (Option.some.inj h').symm
  | some p =>
    rw [hf] at h'
    simp only at h' ⊢
    obtain ⟨⟨p', st1⟩, h1, h2⟩ := Option.bind_eq_some_iff.1 h'
    obtain ⟨q, hq, h1⟩ := Option.bind_eq_some_iff.1 h1
    simp only [Option.some.injEq, Prod.mk.injEq] at h1
    obtain ⟨rfl, rfl⟩ := h1
    simp only [setValue, Option.bind_eq_bind] at h2
    rw [hq] at h2
    simp only [Option.bind_some] at h2
    obtain ⟨⟨b, st2⟩, h3, h4⟩ := Option.bind_eq_some_iff.1 h2
    cases h4
    obtain ⟨x, hx, h3⟩ := Option.bind_eq_some_iff.1 h3
    have hv : q.var < st.mem.length := by
      rcases Nat.lt_or_ge q.var st.mem.length with h | h
      · exact h
      · rw [List.getElem?_eq_none h] at hx; cases hx
    rw [wr_eq_some hv] at h3
    simp only [Option.bind_some] at h3
    have hh := hd.heap p q hq
    refine ⟨_, x, hh.1, hx, ?_⟩
    have hm : st2.mem = st.mem.set q.var (q.parse x value).1 ∧ st2.trace = st.trace ++ (getListeners hist).map (fun l => (l, q.name)) ++
        (if (q.parse x value).2 then (listeners p hist).map (fun l => (l, value)) else []) := by
      cases hp : (q.parse x value).2 with
      | true =>
        rw [hp] at h3
        cases h3
        simp only [callAll_eq, hd.onGet, hh.2]
        simp
      | false =>
        rw [hp] at h3
        cases h3
        simp only [callAll_eq, hd.onGet]
        simp
    refine ⟨by rw [hm.1, List.getElem?_set_self hv], fun i hi => by rw [hm.1, List.getElem?_set_ne (fun h => hi h.symm)], hm.2⟩

theorem step_mem_length (low : Char → Nat) (st st' : State V) (op : Op V) (h : step low st op = some st') : st'.mem.length = st.mem.length := by
  cases op with
  | register n v f => cases h; rfl
  | additional p =>
    simp only [step, registerAdditional] at h
    split at h
    · cases h; rfl
    · cases h
  | drop p =>
    simp only [step, Option.bind_eq_bind] at h
    obtain ⟨ps, _, h⟩ := Option.bind_eq_some_iff.1 h
    cases h; rfl
  | moveLast n =>
    simp only [step, moveLastBefore, Option.bind_eq_bind] at h
    obtain ⟨_, _, h⟩ := Option.bind_eq_some_iff.1 h
    obtain ⟨_, _, h⟩ := Option.bind_eq_some_iff.1 h
    obtain ⟨_, _, h⟩ := Option.bind_eq_some_iff.1 h
    split at h
    · cases h; rfl
    · cases h
  | listen p id =>
    simp only [step, addListener, Option.bind_eq_bind] at h
    obtain ⟨_, _, h⟩ := Option.bind_eq_some_iff.1 h
    obtain ⟨_, _, h⟩ := Option.bind_eq_some_iff.1 h
    cases h; rfl
  | listenGet id => cases h; rfl
  | set n v =>
    simp only [step, Option.bind_eq_bind] at h
    obtain ⟨⟨r, st1⟩, hr, h⟩ := Option.bind_eq_some_iff.1 h
    have k1 : st1.mem = st.mem := by
      simp only [getParameter, Option.bind_eq_bind] at hr
      obtain ⟨r', _, hr⟩ := Option.bind_eq_some_iff.1 hr
      cases r' with
      | none => cases hr; rfl
      | some p =>
        obtain ⟨q, _, hr⟩ := Option.bind_eq_some_iff.1 hr
        cases hr; rfl
    cases r with
    | none => cases h; rw [k1]
    | some p =>
      obtain ⟨⟨b, st2⟩, h2, h⟩ := Option.bind_eq_some_iff.1 h
      cases h
      simp only [setValue, Option.bind_eq_bind] at h2
      obtain ⟨q, _, h2⟩ := Option.bind_eq_some_iff.1 h2
      obtain ⟨x, hx, h2⟩ := Option.bind_eq_some_iff.1 h2
      have hv : q.var < st1.mem.length := by
        rcases Nat.lt_or_ge q.var st1.mem.length with h | h
        · exact h
        · rw [List.getElem?_eq_none h] at hx; cases hx
      rw [wr_eq_some hv] at h2
      simp only [Option.bind_some] at h2
      split at h2 <;> (cases h2; simp [k1])

/-- C35: looking up and assigning never fails when every registered parameter is bound to an existing variable. -/
theorem C35_defined (low : Char → Nat) (mem : List V) (hist : List (Op V)) (st : State V) (name value : Str) (h : run low mem hist = some st)
    (hv : ∀ r ∈ registered hist, r.var < mem.length) : (run low mem (hist ++ [.set name value])).isSome := by
  have hd := run_describes low mem hist st h
  have hlen : ∀ (hist : List (Op V)) (st : State V), run low mem hist = some st → st.mem.length = mem.length := by
    intro hist
    induction hist using List.reverseRecOn with
    | nil => intro st h; cases h; rfl
    | append_singleton hist op ih =>
      intro st h
      rw [run_append] at h
      obtain ⟨st1, h1, h2⟩ := Option.bind_eq_some_iff.1 h
      rw [step_mem_length low st1 st op h2, ih st1 h1]
  have hl := hlen hist st h
  rw [run_append, h]
  simp only [Option.bind_some, step, getParameter, Option.bind_eq_bind]
  rw [hd.find name]
  simp only [Option.bind_some]
  cases hf : find low hist name with
  | none => rfl
  | some p =>
    have hp : p ∈ st.parameters := by
      rw [hd.order]
      exact List.mem_of_find?_eq_some hf
    have hq : st.heap[p]? = some (st.heap[p]'(hd.valid p hp)) := List.getElem?_eq_getElem (hd.valid p hp)
    have hvar := hv _ (List.mem_of_getElem? (hd.heap p _ hq).1)
    simp only [hq, Option.bind_some, setValue, Option.bind_eq_bind]
    simp only at hvar
    rw [← hl] at hvar
    rw [List.getElem?_eq_getElem hvar]
    simp only [Option.bind_some]
    rw [wr_eq_some hvar]
    simp only [Option.bind_some]
    split <;> rfl

/-- Lower case of letters. -/
def lower (c : Char) : Nat := c.toLower.toNat

/-- A parser of one-digit numbers; other texts are rejected but the value is changed (as `ss >> value` does). -/
def digit (_ : Nat) : Str → Nat × Bool
  | [c] => if c.isDigit then (c.toNat - 48, true) else (0, false)
  | _ => (0, false)

/-- Two parameters with the same name in different case, one more name, listeners, accepted and rejected assignments. -/
def sample : List (Op Nat) :=
  [.register "Size".toList 0 digit, .register "SIZE".toList 1 digit, .register "tol".toList 2 digit, .listen 0 10, .listen 2 20, .listen 0 11, .listenGet 30,
   .set "sIZE".toList "7".toList, .set "TOL".toList "x".toList, .set "none".toList "1".toList]

example : (run lower [1, 2, 3] sample).map (fun st => (st.mem, st.trace)) =
    some ([7, 2, 0], [(30, "Size".toList), (10, "7".toList), (11, "7".toList), (30, "tol".toList)]) := by decide +kernel

example : find lower sample "size".toList = some 0 ∧ listeners 0 sample = [10, 11] := by decide +kernel

end Verif.Config
