import Verif.Proof.Serialized
/-
The non-uniform `balance` works on boundaries and values exactly as the uniform one (with one value per item) works on the items.
-/
namespace Verif.Serial
variable {D : Type _}

/-- End positions of items whose values start at `b`. -/
def ends : Nat → List (List D) → List Nat
  | _, [] => []
  | b, x :: l => (b + x.length) :: ends (b + x.length) l

/-- Boundaries of threads, `p` is put in front of the boundaries of the first thread. -/
def bounds (p : List Nat) : Nat → List (List (List D)) → List (List Nat)
  | _, [] => []
  | b, x :: X => (p ++ ends b x) :: bounds [] (b + x.flatten.length) X

theorem ends_append (l m : List (List D)) : ∀ b, ends b (l ++ m) = ends b l ++ ends (b + l.flatten.length) m := by
  induction l with
  | nil => intro b; simp [ends]
  | cons x l ih => intro b; simp only [List.cons_append, ends, ih, List.flatten_cons, List.length_append, Nat.add_assoc]

theorem length_ends (l : List (List D)) : ∀ b, (ends b l).length = l.length := by
  induction l with
  | nil => intro b; rfl
  | cons x l ih => intro b; simp [ends, ih]

theorem take_ends (l : List (List D)) (k : Nat) (b : Nat) : (ends b l).take k = ends b (l.take k) := by
  conv => lhs; rw [← List.take_append_drop k l, ends_append]
  by_cases h : k ≤ l.length
  · rw [List.take_append_of_le_length (by rw [length_ends, List.length_take]; omega), List.take_of_length_le]
    rw [length_ends, List.length_take]; omega
  · rw [List.take_of_length_le, List.drop_of_length_le (by omega)]
    · simp [ends]
    · rw [List.length_append, length_ends, length_ends, List.length_take, List.length_drop]; omega

theorem drop_ends (l : List (List D)) (k : Nat) (b : Nat) (h : k ≤ l.length) :
    (ends b l).drop k = ends (b + (l.take k).flatten.length) (l.drop k) := by
  conv => lhs; rw [← List.take_append_drop k l, ends_append]
  rw [List.drop_append, List.drop_of_length_le (by rw [length_ends, List.length_take]; omega),
    length_ends, List.length_take, Nat.min_eq_left h]
  simp

theorem last_ends (l : List (List D)) : ∀ b, (b :: ends b l).getLast? = some (b + l.flatten.length) := by
  induction l with
  | nil => intro b; simp [ends]
  | cons x l ih =>
      intro b
      simp only [ends, List.getLast?_cons_cons]
      rw [ih]
      simp [Nat.add_assoc]

theorem get_ends (l : List (List D)) (b k : Nat) (h : k < l.length) :
    (ends b l)[k]? = some (b + (l.take (k + 1)).flatten.length) := by
  have h1 : ((ends b l).take (k + 1)).getLast? = some (b + (l.take (k + 1)).flatten.length) := by
    rw [take_ends]
    have := last_ends (l.take (k + 1)) b
    cases hl : ends b (l.take (k + 1)) with
    | nil =>
        have := congrArg List.length hl
        rw [length_ends, List.length_take, List.length_nil] at this
        omega
    | cons y ys =>
        rw [hl, List.getLast?_cons_cons] at this
        exact this
  rw [List.getLast?_eq_getElem?, List.length_take, length_ends, List.getElem?_take] at h1
  rw [show min (k + 1) l.length - 1 = k by omega] at h1
  rw [if_pos (by omega)] at h1
  exact h1

theorem bounds_append (X Y : List (List (List D))) : ∀ (p : List Nat) b,
    bounds p b (X ++ Y) = bounds p b X ++ bounds (if X = [] then p else []) (b + X.flatten.flatten.length) Y := by
  induction X with
  | nil => intro p b; simp [bounds]
  | cons x X ih =>
      intro p b
      simp only [List.cons_append, bounds, ih, List.flatten_cons, List.flatten_append, List.length_append, Nat.add_assoc]
      simp

theorem length_bounds (X : List (List (List D))) : ∀ (p : List Nat) b, (bounds p b X).length = X.length := by
  induction X with
  | nil => intro p b; rfl
  | cons x X ih => intro p b; simp [bounds, ih]

theorem flatten_bounds (X : List (List (List D))) : ∀ (p : List Nat) b, X ≠ [] → (bounds p b X).flatten = p ++ ends b X.flatten := by
  induction X with
  | nil => intro p b h; exact absurd rfl h
  | cons x X ih =>
      intro p b _
      simp only [bounds, List.flatten_cons, ends_append]
      by_cases h : X = []
      · subst h; simp [bounds, ends]
      · rw [ih [] _ h]; simp

theorem bounds_empty (k b : Nat) (Y : List (List (List D))) :
    bounds [] b (List.replicate k [] ++ Y) = List.replicate k [] ++ bounds [] b Y := by
  induction k with
  | zero => simp
  | succ k ih => simp [List.replicate_succ, bounds, ends, ih]

/-- Boundaries and values of the items of threads. -/
def conc (X : List (List (List D))) : BState D :=
  ⟨bounds [0] 0 X, X.map List.flatten, X.map List.length⟩

theorem lastBefore_eq (L : List (List Nat)) : ∀ tt, tt ≤ L.length → lastBefore L tt = (L.take tt).flatten.getLast? := by
  intro tt
  induction tt with
  | zero => intro _; simp [lastBefore]
  | succ tt ih =>
      intro h
      have hg : L[tt]? = some (L[tt]'(by omega)) := List.getElem?_eq_getElem _
      rw [lastBefore, hg, List.take_add_one, hg]
      simp only [Option.bind_eq_bind, Option.bind_some, Option.toList_some, List.flatten_append, List.flatten_cons, List.flatten_nil,
        List.append_nil, List.getLast?_append]
      cases hb : (L[tt]).getLast? with
      | none => simp [ih (by omega)]
      | some x => simp

theorem lastBefore_conc (X : List (List (List D))) (tt : Nat) (h0 : 0 < tt) (h : tt ≤ X.length) :
    lastBefore (bounds [0] 0 X) tt = some (X.take tt).flatten.flatten.length := by
  have hne : X.take tt ≠ [] := by
    intro hh
    have := congrArg List.length hh
    rw [List.length_take, List.length_nil] at this
    omega
  have ht : (bounds [0] 0 X).take tt = bounds [0] 0 (X.take tt) := by
    conv => lhs; rw [← List.take_append_drop tt X, bounds_append]
    rw [List.take_append_of_le_length (by rw [length_bounds, List.length_take]; omega), List.take_of_length_le]
    rw [length_bounds, List.length_take]; omega
  rw [lastBefore_eq _ _ (by rw [length_bounds]; exact h), ht, flatten_bounds _ _ _ hne]
  have := last_ends (X.take tt).flatten 0
  simpa using this

/-- The prefix of the boundaries of the thread behind `pre`. -/
def lead (pre : List (List (List D))) : List Nat := if pre = [] then [0] else []

theorem bounds_split (pre : List (List (List D))) (cur : List (List D)) (k : Nat) (more : List (List (List D))) :
    bounds [0] 0 (pre ++ cur :: (List.replicate k [] ++ more)) =
      bounds [0] 0 pre ++ (lead pre ++ ends pre.flatten.flatten.length cur) ::
        (List.replicate k [] ++ bounds [] (pre.flatten.flatten.length + cur.flatten.length) more) := by
  rw [bounds_append]
  simp only [bounds, bounds_empty, lead, Nat.zero_add]

theorem map_split {α β : Type _} (f : List α → List β) (hf : f [] = []) (pre : List (List α)) (cur : List α) (k : Nat)
    (more : List (List α)) :
    (pre ++ cur :: (List.replicate k [] ++ more)).map f =
      pre.map f ++ f cur :: (List.replicate k [] ++ more.map f) := by
  simp [hf]

theorem moveFront_eq {α : Type _} (pre : List (List α)) (cur src : List α) (k : Nat) (more : List (List α)) (t tt n : Nat)
    (ht : t = pre.length) (htt : tt = pre.length + 1 + k) (hn : n ≤ src.length) :
    moveFront (pre ++ cur :: (List.replicate k [] ++ src :: more)) t tt n =
      some (pre ++ (cur ++ src.take n) :: (List.replicate k [] ++ src.drop n :: more)) := by
  subst ht htt
  unfold moveFront
  rw [get_at, get_far _ _ _ _ _ _ (by simp)]
  simp only [Option.bind_eq_bind, Option.bind_some]
  rw [if_neg (by omega), wr_at, Option.bind_some, wr_far _ _ _ _ _ _ _ (by simp)]

theorem moveBack_eq {α : Type _} (pre : List (List α)) (cur next : List α) (more : List (List α)) (t n : Nat)
    (ht : t = pre.length) (hn : n ≤ cur.length) :
    moveBack (pre ++ cur :: next :: more) t n =
      some (pre ++ cur.take (cur.length - n) :: (cur.drop (cur.length - n) ++ next) :: more) := by
  subst ht
  unfold moveBack
  have e : pre ++ cur :: next :: more = pre ++ cur :: (List.replicate 0 [] ++ next :: more) := rfl
  rw [e, get_at, get_far _ _ _ _ _ _ (by simp)]
  simp only [Option.bind_eq_bind, Option.bind_some]
  rw [if_neg (by omega), wr_far _ _ _ _ _ _ _ (by simp), Option.bind_some, wr_at]
  rfl

theorem take_flatten_length (l : List (List D)) (k : Nat) :
    l.flatten.take (l.take k).flatten.length = (l.take k).flatten := by
  conv => lhs; arg 2; rw [← List.take_append_drop k l, List.flatten_append]
  simp

theorem drop_flatten_length (l : List (List D)) (k : Nat) :
    l.flatten.drop (l.take k).flatten.length = (l.drop k).flatten := by
  conv => lhs; arg 2; rw [← List.take_append_drop k l, List.flatten_append]
  simp

theorem flatten_take_le (l : List (List D)) (k : Nat) : (l.take k).flatten.length ≤ l.flatten.length := by
  conv => rhs; rw [← List.take_append_drop k l, List.flatten_append, List.length_append]
  omega

theorem pullPart_conc (pre : List (List (List D))) (cur m : List (List D)) (k : Nat) (more : List (List (List D))) (diff tt : Nat)
    (htt : tt = pre.length + 1 + k) (h0 : 0 < diff) (hd : diff < m.length) :
    pullPart diff pre.length tt cur.length m.length (conc (pre ++ cur :: (List.replicate k [] ++ m :: more))) =
      some (conc (pre ++ (cur ++ m.take diff) :: (List.replicate k [] ++ m.drop diff :: more))) := by
  subst htt
  unfold pullPart conc
  simp only [Option.bind_eq_bind]
  rw [lastBefore_conc _ _ (by omega) (by simp; omega)]
  have hx : (List.take (pre.length + 1 + k) (pre ++ cur :: (List.replicate k [] ++ m :: more))).flatten.flatten.length =
      pre.flatten.flatten.length + cur.flatten.length := by
    have : pre ++ cur :: (List.replicate k [] ++ m :: more) = (pre ++ cur :: List.replicate k []) ++ m :: more := by simp
    rw [this, List.take_append_of_le_length (by simp; omega), List.take_of_length_le (by simp; omega)]
    simp
  rw [hx, Option.bind_some, bounds_split, bounds_split, map_split _ rfl, map_split _ rfl]
  simp only [bounds, List.nil_append, List.map_cons]
  generalize hP : pre.flatten.flatten.length = P
  generalize hC : cur.flatten.length = C
  rw [get_far _ _ _ _ _ _ (by simp [length_bounds]), Option.bind_some, get_ends _ _ _ (by omega), Option.bind_some]
  rw [show diff - 1 + 1 = diff by omega, show P + C + (m.take diff).flatten.length - (P + C) = (m.take diff).flatten.length by omega]
  rw [moveFront_eq _ _ _ _ _ _ _ _ (by simp) (by simp) (flatten_take_le _ _), Option.bind_some,
    moveFront_eq _ _ _ _ _ _ _ _ (by simp [length_bounds]) (by simp [length_bounds]) (by rw [length_ends]; omega), Option.bind_some]
  have hs : List.map List.length (pre ++ cur :: (List.replicate k [] ++ m :: more)) =
    pre.map List.length ++ cur.length :: (List.replicate k 0 ++ m.length :: more.map List.length) := by simp
  rw [hs, wr_at' _ _ _ _ _ (by simp), Option.bind_some, wr_far _ _ _ _ _ _ _ (by simp), Option.bind_some]
  rw [take_flatten_length, drop_flatten_length, take_ends, drop_ends _ _ _ (by omega)]
  congr 1
  have hfl : (m.take diff).flatten.length + (m.drop diff).flatten.length = m.flatten.length := by
    rw [← List.length_append, ← List.flatten_append, List.take_append_drop]
  congr 1
  · simp only [ends_append, List.flatten_append, List.length_append, hC, List.append_assoc, Nat.add_assoc, hfl]
  · simp
  · simp; omega

theorem pullAll_conc (pre : List (List (List D))) (cur m : List (List D)) (k : Nat) (more : List (List (List D))) (tt : Nat)
    (htt : tt = pre.length + 1 + k) :
    pullAll pre.length tt cur.length m.length (conc (pre ++ cur :: (List.replicate k [] ++ m :: more))) =
      some (conc (pre ++ (cur ++ m) :: (List.replicate (k + 1) [] ++ more))) := by
  subst htt
  unfold pullAll conc
  simp only [Option.bind_eq_bind]
  rw [bounds_split, bounds_split, map_split _ rfl, map_split _ rfl]
  simp only [bounds, List.nil_append, List.map_cons]
  generalize hP : pre.flatten.flatten.length = P
  generalize hC : cur.flatten.length = C
  rw [get_far _ _ _ _ _ _ (by simp [length_bounds]), Option.bind_some, get_far _ _ _ _ _ _ (by simp), Option.bind_some]
  have hs : List.map List.length (pre ++ cur :: (List.replicate k [] ++ m :: more)) =
    pre.map List.length ++ cur.length :: (List.replicate k 0 ++ m.length :: more.map List.length) := by simp
  rw [hs, length_ends, wr_at' _ _ _ _ _ (by simp), Option.bind_some, wr_far _ _ _ _ _ _ _ (by simp), Option.bind_some]
  rw [moveFront_eq _ _ _ _ _ _ _ _ (by simp) (by simp) (Nat.le_refl _), Option.bind_some,
    moveFront_eq _ _ _ _ _ _ _ _ (by simp [length_bounds]) (by simp [length_bounds]) (Nat.le_of_eq (length_ends _ _).symm), Option.bind_some]
  rw [List.take_length, List.drop_length]
  congr 1
  congr 1
  · simp only [ends_append, List.flatten_append, List.length_append, hC, List.append_assoc, Nat.add_assoc]
    rw [List.take_of_length_le (Nat.le_of_eq (length_ends _ _)), List.drop_of_length_le (Nat.le_of_eq (length_ends _ _)), List.replicate_succ', List.append_assoc]
    rfl
  · rw [List.replicate_succ']; simp
  · rw [List.replicate_succ']; simp

theorem sizes_conc (X : List (List (List D))) (t : Nat) (x : List (List D)) (h : X[t]? = some x) :
    (conc X).sizes[t]? = some x.length := by simp [conc, h]

theorem pull_conc (n : Nat) (pre : List (List (List D))) : ∀ (fuel : Nat) (more : List (List (List D))) (k : Nat) (cur : List (List D)),
    pullItems n pre.length fuel (pre.length + 1 + k) (conc (pre ++ cur :: (List.replicate k [] ++ more))) =
      (pullUniform n pre.length fuel (pre.length + 1 + k) (pre ++ cur :: (List.replicate k [] ++ more))).map conc := by
  intro fuel
  induction fuel with
  | zero => intro more k cur; rfl
  | succ fuel ih =>
      intro more k cur
      by_cases h1 : n ≤ cur.length
      · rw [pull_stop _ _ _ _ _ cur (get_at _ _ _) h1, pullItems, sizes_conc _ _ cur (get_at _ _ _)]
        simp [h1]
      · cases more with
        | nil =>
            rw [pullItems, pullUniform, sizes_conc _ _ cur (get_at _ _ _), get_at]
            simp only [Option.bind_eq_bind, Option.bind_some]
            rw [if_neg h1, if_neg h1]
            have : (pre ++ cur :: (List.replicate k [] ++ ([] : List (List (List D)))))[pre.length + 1 + k]? = none :=
              List.getElem?_eq_none (by simp; omega)
            rw [this]
            have : (conc (pre ++ cur :: (List.replicate k [] ++ ([] : List (List (List D)))))).sizes[pre.length + 1 + k]? = none :=
              List.getElem?_eq_none (by simp [conc]; omega)
            rw [this]
            rfl
        | cons m more =>
            have hg : (pre ++ cur :: (List.replicate k [] ++ m :: more))[pre.length + 1 + k]? = some m :=
              get_far _ _ _ _ _ _ (by simp)
            by_cases h2 : n - cur.length < m.length
            · rw [pull_part _ _ _ _ _ _ _ h1 h2 _ rfl, pullItems, sizes_conc _ _ cur (get_at _ _ _), sizes_conc _ _ m hg]
              simp only [Option.bind_eq_bind, Option.bind_some]
              rw [if_neg h1, if_pos h2, pullPart_conc _ _ _ _ _ _ _ rfl (by omega) h2, Option.bind_some]
              cases fuel with
              | zero => rfl
              | succ fuel =>
                  rw [pull_stop _ _ _ _ _ _ (get_at _ _ _) (by simp; omega), pullItems, sizes_conc _ _ _ (get_at _ _ _)]
                  simp only [Option.bind_eq_bind, Option.bind_some]
                  rw [if_pos (by simp; omega)]
                  rfl
            · rw [pull_all _ _ _ _ _ _ _ h1 h2 _ rfl, pullItems, sizes_conc _ _ cur (get_at _ _ _), sizes_conc _ _ m hg]
              simp only [Option.bind_eq_bind, Option.bind_some]
              rw [if_neg h1, if_neg h2, pullAll_conc _ _ _ _ _ _ rfl, Option.bind_some]
              exact ih more (k + 1) (cur ++ m)

theorem push_conc (n : Nat) (pre : List (List (List D))) (cur : List (List D)) (rest : List (List (List D)))
    (hn : n = 0 → pre = [] ∨ cur = []) :
    pushItems n pre.length (conc (pre ++ cur :: rest)) = (pushUniform n pre.length (pre ++ cur :: rest)).map conc := by
  unfold pushItems pushUniform
  rw [sizes_conc _ _ cur (get_at _ _ _), get_at]
  simp only [Option.bind_eq_bind, Option.bind_some]
  by_cases h : n < cur.length
  · have hb : (conc (pre ++ cur :: rest)).bnd = bounds [0] 0 pre ++ (lead pre ++ ends pre.flatten.flatten.length cur) ::
        bounds [] (pre.flatten.flatten.length + cur.flatten.length) rest := bounds_split pre cur 0 rest
    have hdat : (conc (pre ++ cur :: rest)).data = pre.map List.flatten ++ cur.flatten :: rest.map List.flatten := by simp [conc]
    have hsz : (conc (pre ++ cur :: rest)).sizes = pre.map List.length ++ cur.length :: rest.map List.length := by simp [conc]
    rw [if_pos h, if_pos h, hb, hdat, hsz, get_at' _ _ _ _ (by simp [length_bounds])]
    generalize hP : pre.flatten.flatten.length = P
    simp only [Option.bind_some]
    -- the last boundary of the thread
    have hlast : (lead pre ++ ends P cur).getLast? = some (P + cur.flatten.length) := by
      have := last_ends cur P
      cases hc : ends P cur with
      | nil => have := congrArg List.length hc; rw [length_ends] at this; simp at this; subst this; simp at h
      | cons y ys =>
          rw [hc, List.getLast?_cons_cons] at this
          rw [List.getLast?_append, this]; rfl
    have hlen : (lead pre ++ ends P cur).length = (lead pre).length + cur.length := by rw [List.length_append, length_ends]
    have hpos : 0 < (lead pre).length + n := by
      by_cases hz : n = 0
      · rcases hn hz with h1 | h1
        · subst h1; simp [lead]; omega
        · subst h1; simp at h
      · omega
    have hbef : (lead pre ++ ends P cur)[(lead pre).length + n - 1]? = some (P + (cur.take n).flatten.length) := by
      by_cases hz : n = 0
      · rcases hn hz with h1 | h1
        · subst h1; subst hz
          simp [lead] at hP ⊢; omega
        · subst h1; simp at h
      · rw [List.getElem?_append_right (by omega), get_ends _ _ _ (by omega)]
        rw [show (lead pre).length + n - 1 - (lead pre).length + 1 = n by omega]
    rw [hlast]
    simp only [Option.bind_some]
    rw [hlen, if_neg (by omega), show (lead pre).length + cur.length - (cur.length - n) - 1 = (lead pre).length + n - 1 by omega, hbef,
      Option.bind_some]
    have hfl : (cur.take n).flatten.length + (cur.drop n).flatten.length = cur.flatten.length := by
      rw [← List.length_append, ← List.flatten_append, List.take_append_drop]
    rw [show P + cur.flatten.length - (P + (cur.take n).flatten.length) = (cur.drop n).flatten.length by omega]
    cases rest with
    | nil =>
        have e1 : moveBack (pre.map List.flatten ++ cur.flatten :: ([] : List (List (List D))).map List.flatten) pre.length
            (cur.drop n).flatten.length = none := by
          unfold moveBack
          rw [get_at' _ _ _ _ (by simp), List.getElem?_eq_none (by simp)]
          rfl
        rw [e1, List.getElem?_eq_none (by simp)]
        rfl
    | cons x xs =>
        have e : pre ++ cur :: x :: xs = pre ++ cur :: (List.replicate 0 [] ++ x :: xs) := rfl
        rw [List.map_cons, moveBack_eq _ _ _ _ _ _ (by simp) (by omega), Option.bind_some]
        simp only [bounds, List.nil_append]
        rw [moveBack_eq _ _ _ _ _ _ (by simp [length_bounds]) (by rw [hlen]; omega), Option.bind_some]
        rw [wr_at' _ _ _ _ _ (by simp), Option.bind_some]
        have hsx : pre.map List.length ++ n :: List.map List.length (x :: xs) =
          pre.map List.length ++ n :: (List.replicate 0 0 ++ x.length :: xs.map List.length) := rfl
        rw [hsx, get_far _ _ _ _ _ _ (by simp), Option.bind_some, wr_far _ _ _ _ _ _ _ (by simp), Option.bind_some]
        rw [e, get_far _ _ _ _ _ _ (by simp), Option.bind_some, wr_far _ _ _ _ _ _ _ (by simp), Option.bind_some, wr_at]
        rw [show cur.length - (cur.length - n) = n by omega, show cur.flatten.length - (cur.drop n).flatten.length = (cur.take n).flatten.length by omega,
          take_flatten_length, drop_flatten_length, hlen,
          show (lead pre).length + cur.length - (cur.length - n) = (lead pre).length + n by omega]
        simp only [Option.map_some]
        congr 1
        unfold conc
        rw [bounds_split, hP]
        simp only [bounds, List.nil_append]
        congr 1
        · rw [List.take_append, List.take_of_length_le (by omega), List.drop_append, List.drop_of_length_le (by omega),
            show (lead pre).length + n - (lead pre).length = n by omega, take_ends, drop_ends _ _ _ (by omega), ends_append]
          simp only [List.nil_append, List.replicate_zero, List.flatten_append, List.length_append, Nat.add_assoc]
          rw [← hfl, Nat.add_assoc]
        · simp
        · simp; omega
  · rw [if_neg h, if_neg h]; rfl

theorem stepItems_conc (d : List Nat) (X : List (List (List D))) (all : List (List D)) (T t : Nat) (hd : Distribution d T)
    (hz : ZeroSuffix d) (htot : ∀ b, d[T]? = some b → all.length = 1 * b) (ht : t < T) (hI : BalInv 1 d all T t X) :
    stepItems d t (conc X) = (stepUniform 1 d t X).map conc := by
  obtain ⟨pre, rest, rfl, rfl, hl, hf, hp, hs⟩ := hI
  obtain ⟨a, ha⟩ := hd.get (t := pre.length) (by omega)
  obtain ⟨b, hb⟩ := hd.get (t := pre.length + 1) (by omega)
  obtain ⟨c, hc⟩ := hd.get (t := T) (by omega)
  have hab := hd.get_le (by omega) ha hb
  have hbc := hd.get_le (by omega) hb hc
  have hc' := htot c hc
  have hsa := hs a ha
  cases rest with
  | nil => simp at hl; omega
  | cons cur more =>
      have hlen : pre.flatten.length + (cur ++ more.flatten).length = all.length := by rw [← hf]; simp
      rw [List.length_append] at hlen
      have e0 : pre.length + 1 = pre.length + 1 + 0 := rfl
      have ebl : (conc (pre ++ cur :: more)).bnd.length = (pre ++ cur :: more).length := length_bounds _ _ _
      unfold stepItems stepUniform need
      rw [ha, hb]
      simp only [Option.bind_eq_bind, Option.bind_some, Nat.one_mul]
      rw [ebl]
      have hp1 := pull_conc (b - a) pre ((pre ++ cur :: more).length + 1) more 0 cur
      simp only [List.replicate_zero, List.nil_append, Nat.add_zero] at hp1
      rw [hp1]
      obtain ⟨cur', rest, e, hrl, hrf, hcn⟩ := pull_spec (b - a) pre more ((pre ++ cur :: more).length + 1) 0 cur
        (by simp; omega) (by omega)
      simp only [List.replicate_zero, List.nil_append, Nat.add_zero] at e
      rw [e]
      simp only [Option.map_some, Option.bind_some]
      refine push_conc _ _ _ _ (fun h0 => ?_)
      by_cases hpre : pre = []
      · exact Or.inl hpre
      · right
        have hpos : 0 < pre.length := List.length_pos_iff.2 hpre
        have hba : b = a := by omega
        subst hba
        have h1 := hz pre.length b hpos ha hb
        rw [List.getLast?_eq_getElem?, hd.length, Nat.add_sub_cancel, hc] at h1
        cases h1
        have hfe : (cur' ++ rest.flatten).length = (cur ++ more.flatten).length := by rw [hrf]
        rw [List.length_append, List.length_append] at hfe
        exact List.eq_nil_of_length_eq_zero (by omega)

/-- Values of a thread split to items by its boundaries. -/
def itemsOf : Nat → List Nat → List D → List (List D)
  | _, [], _ => []
  | b, x :: l, v => v.take (x - b) :: itemsOf x l (v.drop (x - b))

theorem itemsOf_spec (l : List Nat) : ∀ (b : Nat) (v : List D), (b :: l).Pairwise (· ≤ ·) →
    (b :: l).getLast? = some (b + v.length) → ends b (itemsOf b l v) = l ∧ (itemsOf b l v).flatten = v := by
  induction l with
  | nil =>
      intro b v _ h
      simp at h
      exact ⟨rfl, by simp [itemsOf, h]⟩
  | cons x l ih =>
      intro b v hs h
      have hbx : b ≤ x := (List.pairwise_cons.1 hs).1 x (by simp)
      have hs' := (List.pairwise_cons.1 hs).2
      rw [List.getLast?_cons_cons] at h
      have hmem : b + v.length ∈ x :: l := List.mem_of_getLast? h
      have hx : x ≤ b + v.length := by
        rcases List.mem_cons.1 hmem with h1 | h1
        · omega
        · exact (List.pairwise_cons.1 hs').1 _ h1
      have hlt : (v.take (x - b)).length = x - b := by rw [List.length_take]; omega
      obtain ⟨h1, h2⟩ := ih x (v.drop (x - b)) hs' (by rw [h, List.length_drop]; congr 1; omega)
      refine ⟨?_, by simp [itemsOf, h2]⟩
      simp only [itemsOf, ends, hlt]
      rw [show b + (x - b) = x by omega, h1]

theorem exists_items (bs : List (List Nat)) : ∀ (ds : List (List D)) (b : Nat), bs.length = ds.length →
    (b :: bs.flatten).Pairwise (· ≤ ·) →
    (∀ t, t ≤ bs.length → (b :: (bs.take t).flatten).getLast? = some (b + (ds.take t).flatten.length)) →
    ∃ X : List (List (List D)), bounds [] b X = bs ∧ X.map List.flatten = ds := by
  induction bs with
  | nil =>
      intro ds b hl _ _
      have : ds = [] := by cases ds; rfl; simp at hl
      subst this
      exact ⟨[], rfl, rfl⟩
  | cons l bs ih =>
      intro ds b hl hs hc
      cases ds with
      | nil => simp at hl
      | cons v ds =>
          have h1 := hc 1 (by simp)
          simp only [List.take_succ_cons, List.take_zero, List.flatten_cons, List.flatten_nil, List.append_nil] at h1
          rw [List.flatten_cons, ← List.cons_append, List.pairwise_append] at hs
          obtain ⟨e1, e2⟩ := itemsOf_spec l b v hs.1 h1
          obtain ⟨X, hX, hX'⟩ := ih ds (b + v.length) (by simpa using hl) (by
            rw [List.pairwise_cons]
            exact ⟨fun y hy => hs.2.2 _ (List.mem_of_getLast? h1) y hy, hs.2.1⟩) (by
            intro t ht
            have := hc (t + 1) (by simpa using ht)
            simp only [List.take_succ_cons, List.flatten_cons, List.length_append] at this
            rw [← List.cons_append, List.getLast?_append, h1] at this
            rw [List.getLast?_cons, ← Nat.add_assoc] at *
            cases hg : (bs.take t).flatten.getLast? with
            | none => simpa [hg] using this
            | some z => simpa [hg] using this)
          exact ⟨itemsOf b l v :: X, by simp [bounds, e1, e2, hX], by simp [e2, hX']⟩

theorem Consistent.items {bnd : List (List Nat)} {data : List (List D)} (h : Consistent bnd data) :
    ∃ X : List (List (List D)), X ≠ [] ∧ bnd = bounds [0] 0 X ∧ data = X.map List.flatten := by
  obtain ⟨l, bs, rfl⟩ := h.first
  obtain ⟨X, h1, h2⟩ := exists_items (l :: bs) data 0 (by simpa using h.length) (by simpa using h.mono) (by
    intro t ht
    cases t with
    | zero => simp
    | succ t =>
        have := h.fit t (by simp at ht ⊢; omega)
        simpa using this)
  cases X with
  | nil => simp [bounds] at h1
  | cons x X =>
      refine ⟨x :: X, by simp, ?_, h2.symm⟩
      simp only [bounds, List.nil_append, List.cons.injEq] at h1 ⊢
      exact ⟨by rw [h1.1]; rfl, h1.2.symm⟩

theorem ends_mono (l : List (List D)) : ∀ b, (b :: ends b l).Pairwise (· ≤ ·) := by
  induction l with
  | nil => intro b; simp [ends]
  | cons x l ih =>
      intro b
      have := ih (b + x.length)
      rw [List.pairwise_cons]
      refine ⟨?_, this⟩
      intro y hy
      simp only [ends, List.mem_cons] at hy
      rcases hy with rfl | hy
      · omega
      · have := (List.pairwise_cons.1 this).1 y hy; omega

theorem take_bounds (X : List (List (List D))) (p : List Nat) (b t : Nat) : (bounds p b X).take t = bounds p b (X.take t) := by
  conv => lhs; rw [← List.take_append_drop t X, bounds_append]
  by_cases h : t ≤ X.length
  · rw [List.take_append_of_le_length (by rw [length_bounds, List.length_take]; omega), List.take_of_length_le]
    rw [length_bounds, List.length_take]; omega
  · rw [List.drop_of_length_le (by omega)]
    simp only [bounds, List.append_nil]
    rw [List.take_of_length_le]
    rw [length_bounds, List.length_take]; omega

theorem consistent_conc (X : List (List (List D))) (hne : X ≠ []) : Consistent (conc X).bnd (conc X).data := by
  refine ⟨by simp [conc, length_bounds], ?_, ?_, ?_⟩
  · cases X with
    | nil => exact absurd rfl hne
    | cons x X => exact ⟨_, _, rfl⟩
  · show (bounds [0] 0 X).flatten.Pairwise _
    rw [flatten_bounds _ _ _ hne]
    exact ends_mono _ 0
  · intro t ht
    have hne' : X.take (t + 1) ≠ [] := by
      cases X with
      | nil => exact absurd rfl hne
      | cons x X => simp
    show ((bounds [0] 0 X).take (t + 1)).flatten.getLast? = some ((X.map List.flatten).take (t + 1)).flatten.length
    rw [take_bounds, flatten_bounds _ _ _ hne', List.singleton_append, last_ends, ← List.map_take, Nat.zero_add]
    rw [List.flatten_flatten]

theorem balanceItemsBy_spec (bnd : List (List Nat)) (data : List (List D)) (d : List Nat) (h : Consistent bnd data)
    (hd : Distribution d data.length) (hz : ZeroSuffix d) (htot : d.getLast? = some (bnd.flatten.length - 1)) :
    ∃ bnd' data', balanceItemsBy bnd data d = some (bnd', data') ∧ bnd'.flatten = bnd.flatten ∧ data'.flatten = data.flatten ∧
      Consistent bnd' data' ∧ bnd'.length = bnd.length ∧
      ∀ t x, bnd'[t]? = some x → ∃ a b, d[t]? = some a ∧ d[t + 1]? = some b ∧
        x.length = (b - a) + if t = 0 then 1 else 0 := by
  obtain ⟨X, hne, rfl, rfl⟩ := h.items
  have hT : (X.map List.flatten).length = X.length := by simp
  rw [hT] at hd
  have hfl : (bounds [0] 0 X).flatten = 0 :: ends 0 X.flatten := flatten_bounds _ _ _ hne
  have htot' : ∀ b, d[X.length]? = some b → X.flatten.length = 1 * b := by
    intro b hb
    rw [List.getLast?_eq_getElem?, hd.length, Nat.add_sub_cancel, hb, hfl] at htot
    simp [length_ends] at htot
    rw [List.length_flatten]; omega
  obtain ⟨s, e, X', rfl, hI⟩ := forLoop_inv (Nat.zero_le X.length) (conc X) (stepItems d)
    (fun t s => ∃ Y, s = conc Y ∧ BalInv 1 d X.flatten X.length t Y)
    ⟨X, rfl, [], X, rfl, rfl, rfl, rfl, by simp, by intro a ha; rw [hd.zero] at ha; cases ha; simp⟩
    (by
      rintro t - ht s ⟨Y, rfl, hY⟩
      obtain ⟨Y', e, hY'⟩ := step_spec 1 d X.flatten X.length t Y hd htot' ht hY
      exact ⟨conc Y', by rw [stepItems_conc d Y X.flatten X.length t hd hz htot' ht hY, e]; rfl, Y', rfl, hY'⟩)
  obtain ⟨pre, rest, rfl, hl, hT', hf, hp, -⟩ := hI
  have : rest = [] := by
    have := List.length_append (as := pre) (bs := rest)
    cases rest; rfl; simp at this hT'; omega
  subst this
  rw [List.append_nil] at *
  have hne' : pre ≠ [] := by
    rintro rfl
    have : 0 < X.length := List.length_pos_iff.2 hne
    simp at hl; omega
  refine ⟨(conc pre).bnd, (conc pre).data, ?_, ?_, ?_, consistent_conc pre hne', ?_, ?_⟩
  · unfold balanceItemsBy
    have hsum : (List.map List.length (bounds [0] 0 X)).sum ≠ 0 := by
      rw [← List.length_flatten, hfl]; simp
    rw [if_neg hsum]
    cases X with
    | nil => exact absurd rfl hne
    | cons x X =>
        have hm : List.map List.length (bounds [0] 0 (x :: X)) = (x.length + 1) :: X.map List.length := by
          simp only [bounds, List.map_cons, List.length_append, length_ends, List.cons.injEq]
          refine ⟨by simp; omega, ?_⟩
          generalize 0 + x.flatten.length = b
          clear * -
          induction X generalizing b with
          | nil => rfl
          | cons y X ih => simp [bounds, length_ends, ih]
        rw [hm]
        simp only [List.getElem?_cons_zero, Option.bind_eq_bind, Option.bind_some]
        rw [if_neg (by omega), wr_eq_some (by simp), Option.bind_some]
        have hc : (⟨bounds [0] 0 (x :: X), (x :: X).map List.flatten, ((x.length + 1) :: X.map List.length).set 0 (x.length + 1 - 1)⟩ : BState D) =
          conc (x :: X) := by simp [conc]
        rw [hc, length_bounds, e]
        rfl
  · show (bounds [0] 0 pre).flatten = _
    rw [flatten_bounds _ _ _ hne', hf, hfl]; rfl
  · show (pre.map List.flatten).flatten = _
    rw [← List.flatten_flatten, hf, List.flatten_flatten]
  · show (bounds [0] 0 pre).length = _
    rw [length_bounds, length_bounds, hT']
  · intro t x hx
    change (bounds [0] 0 pre)[t]? = some x at hx
    have htl : t < pre.length := by
      have := (List.getElem?_eq_some_iff.1 hx).1
      rwa [length_bounds] at this
    have hsp : pre = pre.take t ++ pre[t] :: pre.drop (t + 1) := by simp
    rw [hsp, bounds_append, List.getElem?_append_right (by rw [length_bounds, List.length_take]; omega), length_bounds, List.length_take,
      show t - min t pre.length = 0 by omega] at hx
    simp only [bounds, List.getElem?_cons_zero, Option.some.injEq] at hx
    obtain ⟨a, b, ha, hb, hab⟩ := hp t pre[t] (List.getElem?_eq_getElem htl)
    refine ⟨a, b, ha, hb, ?_⟩
    rw [← hx, List.length_append, length_ends, hab]
    by_cases h0 : t = 0
    · subst h0; simp; omega
    · have : pre.take t ≠ [] := by
        intro hh
        have := congrArg List.length hh
        rw [List.length_take, List.length_nil] at this
        omega
      simp [h0, this]

end Verif.Serial
