import Verif.Model.Config
import Verif.Prop.Strings
import Mathlib.Data.List.Induction
/-!
Proofs about configuration objects (C35).
-/
namespace Verif.Config

open Verif.Parser (caseInsensitiveEq)

variable {V : Type}

theorem eq_spec (low : Char → Nat) (a b : Str) : caseInsensitiveEq low a b = some (decide (SameName low a b)) := by
  have h := Verif.Parser.C56_equivalence low a b
  by_cases hs : SameName low a b
  · rw [h.2.2 hs]; simp [hs]
  · have h1 : caseInsensitiveEq low a b ≠ some true := fun hh => hs (h.2.1 hh)
    rw [h.1] at h1 ⊢
    simp only [ne_eq, Option.some.injEq, Bool.not_eq_true] at h1
    rw [h1]
    simp [hs]

theorem callAll_eq (arg : Str) (ls : List Nat) (t : List (Nat × Str)) : callAll arg ls t = t ++ ls.map fun l => (l, arg) := by
  unfold callAll
  induction ls generalizing t with
  | nil => simp
  | cons l ls ih => rw [List.foldl_cons, ih]; simp

/-- The state describes the history. -/
structure Describes (low : Char → Nat) (hist : List (Op V)) (st : State V) : Prop where
  len : st.heap.length = (registered hist).length
  heap : ∀ (p : Nat) (q : Param V), st.heap[p]? = some q → (registered hist)[p]? = some ⟨q.name, q.var, q.parse⟩ ∧ q.onSet = listeners p hist
  order : st.parameters = Config.order low hist
  valid : ∀ p ∈ st.parameters, p < st.heap.length
  onGet : st.onGet = getListeners hist
  future : ∀ p, st.heap.length ≤ p → listeners p hist = []

theorem Describes.getNamed {low : Char → Nat} {hist : List (Op V)} {st : State V} (h : Describes low hist st) (name : Str) (ps : List Nat) (hps : ∀ p ∈ ps, p < st.heap.length) :
    getNamed low st.heap name ps = some (ps.find? (hasName low hist name)) := by
  induction ps with
  | nil => rfl
  | cons p ps ih =>
    have hp := hps p List.mem_cons_self
    obtain ⟨q, hq⟩ : ∃ q, st.heap[p]? = some q := ⟨_, List.getElem?_eq_getElem hp⟩
    have hr := (h.heap p q hq).1
    have hn : hasName low hist name p = decide (SameName low name q.name) := by
      unfold hasName; rw [hr]
    unfold Config.getNamed
    rw [hq]
    simp only [Option.bind_eq_bind, Option.bind_some]
    rw [eq_spec]
    simp only [Option.bind_some]
    rw [List.find?_cons, hn]
    by_cases hs : SameName low name q.name
    · simp [hs]
    · simp only [hs, decide_false, Bool.false_eq_true, if_false]
      exact ih fun p hp => hps p (List.mem_cons_of_mem _ hp)

theorem Describes.find {low : Char → Nat} {hist : List (Op V)} {st : State V} (h : Describes low hist st) (name : Str) :
    Config.getNamed low st.heap name st.parameters = some (Config.find low hist name) := by
  rw [h.getNamed name _ h.valid, h.order]
  rfl

theorem dropLoop_spec (p : Nat) (ps ps' : List Nat) (h : dropLoop p ps = some ps') : ps' = ps.erase p := by
  induction ps generalizing ps' with
  | nil => cases h
  | cons q ps ih =>
    unfold dropLoop at h
    rw [List.erase_cons]
    by_cases hq : q = p
    · rw [if_pos hq] at h
      rw [if_pos (by simpa using hq)]
      exact (Option.some.inj h).symm
    · rw [if_neg hq] at h
      rw [if_neg (by simpa using hq)]
      obtain ⟨x, hx, rfl⟩ := Option.map_eq_some_iff.1 h
      rw [ih x hx]

theorem registered_append (hist : List (Op V)) (op : Op V) : registered (hist ++ [op]) = registered hist ++ registered [op] := by
  unfold registered; rw [List.filterMap_append]

theorem listeners_append (p : Nat) (hist : List (Op V)) (op : Op V) : listeners p (hist ++ [op]) = listeners p hist ++ listeners p [op] := by
  unfold listeners; rw [List.filterMap_append]

theorem getListeners_append (hist : List (Op V)) (op : Op V) : getListeners (hist ++ [op]) = getListeners hist ++ getListeners [op] := by
  unfold getListeners; rw [List.filterMap_append]

theorem order_append (low : Char → Nat) (hist : List (Op V)) (op : Op V) : order low (hist ++ [op]) = orderStep low hist (order low hist) op := by
  unfold order
  rw [List.reverse_append]
  simp [orderRev]

/-- `std::find` of the found parameter points to the first parameter with the name. -/
theorem findPtr_find (f : Nat → Bool) (ps : List Nat) (p : Nat) (h : ps.find? f = some p) : findPtr p ps = (ps.takeWhile fun p => !f p).length := by
  induction ps with
  | nil => cases h
  | cons q ps ih =>
    rw [List.find?_cons] at h
    unfold findPtr
    cases hf : f q with
    | true =>
      rw [hf] at h
      rw [if_pos (Option.some.inj h)]
      simp [hf]
    | false =>
      rw [hf] at h
      have hne : q ≠ p := by
        rintro rfl
        have := List.find?_some h
        rw [hf] at this
        cases this
      rw [if_neg hne, ih h]
      simp [hf]

theorem insertIdx_split (ps : List Nat) (f : Nat → Bool) (x : Nat) : ps.insertIdx (ps.takeWhile f).length x = ps.takeWhile f ++ x :: ps.dropWhile f := by
  induction ps with
  | nil => simp
  | cons q ps ih =>
    by_cases hf : f q = true
    · rw [List.takeWhile_cons_of_pos hf, List.dropWhile_cons_of_pos hf, List.length_cons, List.insertIdx_succ_cons, ih]
      rfl
    · rw [List.takeWhile_cons_of_neg hf, List.dropWhile_cons_of_neg hf]
      rfl

theorem takeWhile_dropLast (f : Nat → Bool) (ps : List Nat) (h : (ps.takeWhile f).length < ps.dropLast.length) : ps.dropLast.takeWhile f = ps.takeWhile f := by
  induction ps with
  | nil => rfl
  | cons q ps ih =>
    cases ps with
    | nil => simp at h
    | cons r ps =>
      simp only [List.dropLast_cons_cons] at h ⊢
      by_cases hf : f q = true
      · rw [List.takeWhile_cons_of_pos hf] at h
        rw [List.takeWhile_cons_of_pos hf, List.takeWhile_cons_of_pos hf, ih (by simpa using h)]
      · rw [List.takeWhile_cons_of_neg hf, List.takeWhile_cons_of_neg hf]

theorem step_describes (low : Char → Nat) (hist : List (Op V)) (st st' : State V) (op : Op V) (h : Describes low hist st) (hs : step low st op = some st') :
    Describes low (hist ++ [op]) st' := by
  obtain ⟨h1, h2, h3, h4, h5, h6⟩ := h
  cases op with
  | register n v f =>
    cases hs
    refine ⟨by rw [registered_append]; simp [register, h1, registered], ?_, ?_, ?_, ?_, ?_⟩
    · intro p q hq
      rw [registered_append, listeners_append]
      simp only [register] at hq
      by_cases hp : p < st.heap.length
      · rw [List.getElem?_append_left hp] at hq
        rw [List.getElem?_append_left (by omega)]
        have := h2 p q hq
        simp [this, listeners]
      · by_cases hp' : p = st.heap.length
        · subst hp'
          rw [List.getElem?_append_right (Nat.le_refl _)] at hq
          simp only [Nat.sub_self, List.getElem?_cons_zero, Option.some.injEq] at hq
          subst hq
          rw [h1, List.getElem?_append_right (Nat.le_refl _)]
          have := h6 st.heap.length (Nat.le_refl _)
          rw [h1] at this
          simp only [registered, listeners] at *
          simp [this]
        · rw [List.getElem?_eq_none (by simp; omega)] at hq
          cases hq
    · rw [order_append]
      simp [register, orderStep, h3, h1]
    · intro p hp
      simp only [register, List.mem_append, List.mem_singleton, List.length_append, List.length_cons, List.length_nil] at hp ⊢
      rcases hp with hp | rfl
      · have := h4 p hp; omega
      · omega
    · rw [getListeners_append]
      simp [register, h5, getListeners]
    · intro p hp
      simp only [register, List.length_append, List.length_cons, List.length_nil] at hp
      rw [listeners_append, h6 p (by omega)]
      rfl
  | additional p =>
    simp only [step, registerAdditional] at hs
    split at hs
    · next hp =>
      cases hs
      refine ⟨by rw [registered_append]; simp [h1, registered], ?_, ?_, ?_, ?_, ?_⟩
      · intro p q hq
        rw [registered_append, listeners_append]
        have := h2 p q hq
        simpa [registered, listeners] using this
      · rw [order_append]; simp [orderStep, h3]
      · intro x hx
        simp only [List.mem_append, List.mem_singleton] at hx
        rcases hx with hx | rfl
        · exact h4 x hx
        · exact hp
      · rw [getListeners_append]; simp [h5, getListeners]
      · intro p hp
        rw [listeners_append, h6 p hp]
        rfl
    · cases hs
  | drop p =>
    simp only [step, Option.bind_eq_bind] at hs
    obtain ⟨ps, hps, hs⟩ := Option.bind_eq_some_iff.1 hs
    cases hs
    have he := dropLoop_spec p _ _ hps
    refine ⟨by rw [registered_append]; simp [h1, registered], ?_, ?_, ?_, ?_, ?_⟩
    · intro p q hq
      rw [registered_append, listeners_append]
      have := h2 p q hq
      simpa [registered, listeners] using this
    · rw [order_append]; simp [orderStep, ← h3, he]
    · intro x hx
      exact h4 x (List.mem_of_mem_erase (he ▸ hx))
    · rw [getListeners_append]; simp [h5, getListeners]
    · intro p hp
      rw [listeners_append, h6 p hp]
      rfl
  | moveLast n =>
    simp only [step, moveLastBefore, Option.bind_eq_bind] at hs
    obtain ⟨last, hlast, hs⟩ := Option.bind_eq_some_iff.1 hs
    obtain ⟨r, hr, hs⟩ := Option.bind_eq_some_iff.1 hs
    obtain ⟨p, rfl, hs'⟩ := Option.bind_eq_some_iff.1 hs
    clear hs
    have hs := hs'
    have hd : Describes low hist st := ⟨h1, h2, h3, h4, h5, h6⟩
    rw [hd.find n] at hr
    have hf : st.parameters.find? (hasName low hist n) = some p := by rw [h3]; exact Option.some.inj hr
    rw [findPtr_find _ _ _ hf] at hs
    split at hs
    · next hlt =>
      cases hs
      rw [← takeWhile_dropLast _ _ hlt, insertIdx_split]
      refine ⟨by rw [registered_append]; simp [h1, registered], ?_, ?_, ?_, ?_, ?_⟩
      · intro p q hq
        rw [registered_append, listeners_append]
        have := h2 p q hq
        simpa [registered, listeners] using this
      · rw [order_append]
        simp only [orderStep]
        rw [← h3, hlast]
      · intro x hx
        refine h4 x ?_
        rcases List.mem_append.1 hx with hx | hx
        · exact (List.dropLast_sublist _).subset ((List.takeWhile_sublist _).subset hx)
        · rcases List.mem_cons.1 hx with rfl | hx
          · exact List.mem_of_getLast? hlast
          · exact (List.dropLast_sublist _).subset ((List.dropWhile_sublist _).subset hx)
      · rw [getListeners_append]; simp [h5, getListeners]
      · intro p hp
        rw [listeners_append, h6 p hp]
        rfl
    · cases hs
  | listen p id =>
    simp only [step, addListener, Option.bind_eq_bind] at hs
    obtain ⟨q, hq, hs⟩ := Option.bind_eq_some_iff.1 hs
    have hp : p < st.heap.length := by
      rcases Nat.lt_or_ge p st.heap.length with h | h
      · exact h
      · rw [List.getElem?_eq_none h] at hq; cases hq
    rw [wr_eq_some hp] at hs
    cases hs
    refine ⟨by rw [registered_append]; simp [h1, registered], ?_, ?_, ?_, ?_, ?_⟩
    · intro x y hy
      rw [registered_append, listeners_append]
      by_cases hx : x = p
      · subst hx
        rw [List.getElem?_set_self hp] at hy
        cases hy
        have := h2 x q hq
        simpa [registered, listeners] using this
      · rw [List.getElem?_set_ne (fun h => hx h.symm)] at hy
        have := h2 x y hy
        simpa [registered, listeners, Ne.symm hx] using this
    · rw [order_append]; simp [orderStep, h3]
    · intro x hx
      simpa using h4 x hx
    · rw [getListeners_append]; simp [h5, getListeners]
    · intro x hx
      simp only [List.length_set] at hx
      rw [listeners_append, h6 x hx]
      have : p ≠ x := by omega
      simp [listeners, this]
  | listenGet id =>
    cases hs
    refine ⟨by rw [registered_append]; simp [h1, registered], ?_, ?_, h4, ?_, ?_⟩
    · intro p q hq
      rw [registered_append, listeners_append]
      have := h2 p q hq
      simpa [registered, listeners] using this
    · rw [order_append]; simp [orderStep, h3]
    · rw [getListeners_append]; simp [h5, getListeners]
    · intro p hp
      rw [listeners_append, h6 p hp]
      rfl
  | set n v =>
    have key : st'.heap = st.heap ∧ st'.parameters = st.parameters ∧ st'.onGet = st.onGet := by
      simp only [step, Option.bind_eq_bind] at hs
      obtain ⟨⟨r, st1⟩, hr, hs⟩ := Option.bind_eq_some_iff.1 hs
      have k1 : st1.heap = st.heap ∧ st1.parameters = st.parameters ∧ st1.onGet = st.onGet := by
        simp only [getParameter, Option.bind_eq_bind] at hr
        obtain ⟨r', _, hr⟩ := Option.bind_eq_some_iff.1 hr
        cases r' with
        | none => cases hr; exact ⟨rfl, rfl, rfl⟩
        | some p =>
          obtain ⟨q, _, hr⟩ := Option.bind_eq_some_iff.1 hr
          cases hr
          exact ⟨rfl, rfl, rfl⟩
      cases r with
      | none => cases hs; exact k1
      | some p =>
        obtain ⟨⟨b, st2⟩, h2, hs⟩ := Option.bind_eq_some_iff.1 hs
        cases hs
        simp only [setValue, Option.bind_eq_bind] at h2
        obtain ⟨q, _, h2⟩ := Option.bind_eq_some_iff.1 h2
        obtain ⟨x, _, h2⟩ := Option.bind_eq_some_iff.1 h2
        obtain ⟨m, _, h2⟩ := Option.bind_eq_some_iff.1 h2
        split at h2 <;> (cases h2; exact k1)
    obtain ⟨k1, k2, k3⟩ := key
    refine ⟨by rw [registered_append]; simp [k1, h1, registered], ?_, ?_, by rw [k1, k2]; exact h4, ?_, ?_⟩
    · intro p q hq
      rw [k1] at hq
      rw [registered_append, listeners_append]
      have := h2 p q hq
      simpa [registered, listeners] using this
    · rw [order_append]; simp [orderStep, k2, h3]
    · rw [getListeners_append]; simp [k3, h5, getListeners]
    · intro p hp
      rw [k1] at hp
      rw [listeners_append, h6 p hp]
      rfl

theorem run_append (low : Char → Nat) (mem : List V) (hist : List (Op V)) (op : Op V) : run low mem (hist ++ [op]) = (run low mem hist).bind fun st => step low st op := by
  unfold run
  rw [List.foldlM_append]
  simp

theorem run_describes (low : Char → Nat) (mem : List V) (hist : List (Op V)) (st : State V) (h : run low mem hist = some st) : Describes low hist st := by
  induction hist using List.reverseRecOn generalizing st with
  | nil =>
    cases h
    exact ⟨rfl, fun p q hq => (by simp at hq), rfl, fun p hp => (by cases hp), rfl, fun _ _ => rfl⟩
  | append_singleton hist op ih =>
    rw [run_append] at h
    obtain ⟨st1, h1, h2⟩ := Option.bind_eq_some_iff.1 h
    exact step_describes low hist st1 st op (ih st1 h1) h2

end Verif.Config
