import Verif.Model.Serialized
import Verif.Spec.Serialized
import Mathlib.Data.List.Basic
namespace Verif.Serial
variable {D : Type _}

theorem wr_at {α : Type _} (a : List α) (x y : α) (b : List α) : wr (a ++ x :: b) a.length y = some (a ++ y :: b) := by
  rw [wr_eq_some (by simp)]; simp

theorem wr_at' {α : Type _} (a : List α) (x y : α) (b : List α) (i : Nat) (h : i = a.length) :
    wr (a ++ x :: b) i y = some (a ++ y :: b) := by subst h; exact wr_at a x y b

theorem get_at {α : Type _} (a : List α) (x : α) (b : List α) : (a ++ x :: b)[a.length]? = some x := by simp

theorem get_at' {α : Type _} (a : List α) (x : α) (b : List α) (i : Nat) (h : i = a.length) :
    (a ++ x :: b)[i]? = some x := by subst h; exact get_at a x b

/-- Reading and writing behind the current thread and a run of emptied ones. -/
theorem get_far {α : Type _} (pre mid more : List α) (cur m : α) (i : Nat) (h : i = pre.length + 1 + mid.length) :
    (pre ++ cur :: (mid ++ m :: more))[i]? = some m := by
  have : pre ++ cur :: (mid ++ m :: more) = (pre ++ cur :: mid) ++ m :: more := by simp
  rw [this]
  exact get_at' _ _ _ _ (by simp; omega)

theorem wr_far {α : Type _} (pre mid more : List α) (cur m y : α) (i : Nat) (h : i = pre.length + 1 + mid.length) :
    wr (pre ++ cur :: (mid ++ m :: more)) i y = some (pre ++ cur :: (mid ++ y :: more)) := by
  have : pre ++ cur :: (mid ++ m :: more) = (pre ++ cur :: mid) ++ m :: more := by simp
  rw [this, wr_at' _ _ _ _ _ (by simp; omega)]
  simp

theorem pull_stop (n t fuel tt : Nat) (data : List (List D)) (cur : List D) (h : data[t]? = some cur) (hn : n ≤ cur.length) :
    pullUniform n t (fuel + 1) tt data = some data := by
  simp [pullUniform, h, hn]

theorem pull_part (n fuel : Nat) (pre : List (List D)) (cur m : List D) (k : Nat) (more : List (List D))
    (hn : ¬ n ≤ cur.length) (hm : n - cur.length < m.length) (tt : Nat) (htt : tt = pre.length + 1 + k) :
    pullUniform n pre.length (fuel + 1) tt (pre ++ cur :: (List.replicate k [] ++ m :: more)) =
    pullUniform n pre.length fuel (tt + 1)
      (pre ++ (cur ++ m.take (n - cur.length)) :: (List.replicate k [] ++ m.drop (n - cur.length) :: more)) := by
  rw [pullUniform, get_at]
  simp only [Option.bind_eq_bind, Option.bind_some]
  rw [if_neg hn, get_far _ _ _ _ _ _ (by simp; omega)]
  simp only [Option.bind_some]
  rw [if_pos hm, wr_at, Option.bind_some, wr_far _ _ _ _ _ _ _ (by simp; omega), Option.bind_some]

theorem pull_all (n fuel : Nat) (pre : List (List D)) (cur m : List D) (k : Nat) (more : List (List D))
    (hn : ¬ n ≤ cur.length) (hm : ¬ n - cur.length < m.length) (tt : Nat) (htt : tt = pre.length + 1 + k) :
    pullUniform n pre.length (fuel + 1) tt (pre ++ cur :: (List.replicate k [] ++ m :: more)) =
    pullUniform n pre.length fuel (tt + 1) (pre ++ (cur ++ m) :: (List.replicate (k + 1) [] ++ more)) := by
  rw [pullUniform, get_at]
  simp only [Option.bind_eq_bind, Option.bind_some]
  rw [if_neg hn, get_far _ _ _ _ _ _ (by simp; omega)]
  simp only [Option.bind_some]
  rw [if_neg hm, wr_at, Option.bind_some, wr_far _ _ _ _ _ _ _ (by simp; omega), Option.bind_some]
  rw [List.replicate_succ', List.append_assoc]
  rfl

theorem pull_spec (n : Nat) (pre : List (List D)) (more : List (List D)) : ∀ (fuel k : Nat) (cur : List D),
    more.length + 1 < fuel → n ≤ cur.length + more.flatten.length →
    ∃ cur' rest, pullUniform n pre.length fuel (pre.length + 1 + k) (pre ++ cur :: (List.replicate k [] ++ more)) =
        some (pre ++ cur' :: rest) ∧ rest.length = k + more.length ∧ cur' ++ rest.flatten = cur ++ more.flatten ∧
      n ≤ cur'.length := by
  induction more with
  | nil =>
      intro fuel k cur hf hn
      obtain ⟨fuel, rfl⟩ : ∃ f, fuel = f + 1 := ⟨fuel - 1, by omega⟩
      refine ⟨cur, List.replicate k [] ++ [], pull_stop _ _ _ _ _ cur (get_at _ _ _) (by simpa using hn), by simp, by simp, by simpa using hn⟩
  | cons m more ih =>
      intro fuel k cur hf hn
      obtain ⟨fuel, rfl⟩ : ∃ f, fuel = f + 2 := ⟨fuel - 2, by simp at hf; omega⟩
      by_cases h1 : n ≤ cur.length
      · exact ⟨cur, List.replicate k [] ++ m :: more, pull_stop _ _ _ _ _ cur (get_at _ _ _) h1, by simp, by simp, h1⟩
      · by_cases h2 : n - cur.length < m.length
        · rw [pull_part _ _ _ _ _ _ _ h1 h2 _ rfl, pull_stop _ _ _ _ _ _ (get_at _ _ _) (by simp; omega)]
          exact ⟨_, _, rfl, by simp, by simp [← List.append_assoc (List.take _ _)], by simp; omega⟩
        · rw [pull_all _ _ _ _ _ _ _ h1 h2 _ rfl]
          obtain ⟨cur', rest, e, hl, hfl, hc⟩ := ih (fuel + 1) (k + 1) (cur ++ m) (by simp at hf; omega)
            (by simp at hn ⊢; omega)
          refine ⟨cur', rest, ?_, by simp at hl ⊢; omega, by rw [hfl]; simp, hc⟩
          rw [← e]; rfl

theorem push_spec (n : Nat) (pre : List (List D)) (cur : List D) (rest : List (List D)) (hn : n ≤ cur.length)
    (hr : rest = [] → cur.length = n) :
    ∃ rest', pushUniform n pre.length (pre ++ cur :: rest) = some (pre ++ cur.take n :: rest') ∧
      rest'.length = rest.length ∧ cur.take n ++ rest'.flatten = cur ++ rest.flatten := by
  unfold pushUniform
  rw [get_at]
  simp only [Option.bind_eq_bind, Option.bind_some]
  by_cases h : n < cur.length
  · cases rest with
    | nil => have := hr rfl; omega
    | cons x xs =>
        have e : pre ++ cur :: x :: xs = pre ++ cur :: (List.replicate 0 [] ++ x :: xs) := rfl
        rw [if_pos h, e, get_far _ _ _ _ _ _ (by simp), Option.bind_some, wr_far _ _ _ _ _ _ _ (by simp), Option.bind_some, wr_at,
          show cur.length - (cur.length - n) = n by omega]
        refine ⟨_, rfl, by simp, ?_⟩
        simp [← List.append_assoc]
  · rw [if_neg h, List.take_of_length_le (by omega)]
    exact ⟨rest, rfl, rfl, rfl⟩

theorem Distribution.get_le {d : List Nat} {T : Nat} (h : Distribution d T) {i j a b : Nat} (hij : i ≤ j)
    (ha : d[i]? = some a) (hb : d[j]? = some b) : a ≤ b := by
  obtain ⟨hi, rfl⟩ := List.getElem?_eq_some_iff.1 ha
  obtain ⟨hj, rfl⟩ := List.getElem?_eq_some_iff.1 hb
  rcases Nat.lt_or_eq_of_le hij with h1 | h1
  · exact List.pairwise_iff_getElem.1 h.mono i j hi hj h1
  · subst h1; exact Nat.le_refl _

theorem Distribution.get {d : List Nat} {T : Nat} (h : Distribution d T) {t : Nat} (ht : t ≤ T) :
    ∃ a, d[t]? = some a := ⟨d[t]'(by have := h.length; omega), List.getElem?_eq_getElem _⟩

/-- State after the threads `0 .. t` are done. -/
def BalInv (esize : Nat) (d : List Nat) (all : List D) (T t : Nat) (data : List (List D)) : Prop :=
  ∃ pre rest, data = pre ++ rest ∧ pre.length = t ∧ data.length = T ∧ data.flatten = all ∧
    (∀ s x, pre[s]? = some x → ∃ a b, d[s]? = some a ∧ d[s + 1]? = some b ∧ x.length = esize * (b - a)) ∧
    ∀ a, d[t]? = some a → pre.flatten.length = esize * a

theorem step_spec (esize : Nat) (d : List Nat) (all : List D) (T t : Nat) (data : List (List D))
    (hd : Distribution d T) (htot : ∀ b, d[T]? = some b → all.length = esize * b) (ht : t < T)
    (hI : BalInv esize d all T t data) :
    ∃ data', stepUniform esize d t data = some data' ∧ BalInv esize d all T (t + 1) data' := by
  obtain ⟨pre, rest, rfl, rfl, hl, hf, hp, hs⟩ := hI
  obtain ⟨a, ha⟩ := hd.get (t := pre.length) (by omega)
  obtain ⟨b, hb⟩ := hd.get (t := pre.length + 1) (by omega)
  obtain ⟨c, hc⟩ := hd.get (t := T) (by omega)
  have hab := hd.get_le (by omega) ha hb
  have hbc := hd.get_le (by omega) hb hc
  have hc' := htot c hc
  have hsa := hs a ha
  cases rest with
  | nil => simp at hl; omega
  | cons cur more =>
      have hlen : pre.flatten.length + (cur ++ more.flatten).length = all.length := by
        rw [← hf]; simp
      have hmul : esize * (b - a) = esize * b - esize * a := Nat.mul_sub ..
      have hm1 : esize * a ≤ esize * b := Nat.mul_le_mul_left _ hab
      have hm2 : esize * b ≤ esize * c := Nat.mul_le_mul_left _ hbc
      rw [List.length_append] at hlen
      obtain ⟨cur', rest, e, hrl, hrf, hcn⟩ := pull_spec (esize * (b - a)) pre more (pre.length + (more.length + 1) + 1) 0 cur (by omega)
        (by omega)
      have hfe : (cur' ++ rest.flatten).length = (cur ++ more.flatten).length := by rw [hrf]
      rw [List.length_append, List.length_append] at hfe
      obtain ⟨rest', e', hrl', hrf'⟩ := push_spec (esize * (b - a)) pre cur' rest hcn (by
        rintro rfl
        simp at hrl hl
        have : more = [] := by cases more; rfl; simp at hrl
        subst this
        have : pre.length + 1 = T := by simp at hl; omega
        rw [this, hc] at hb
        cases hb
        simp only [List.flatten_nil, List.length_nil] at hfe hlen
        omega)
      refine ⟨pre ++ cur'.take (esize * (b - a)) :: rest', ?_, ?_⟩
      · unfold stepUniform need
        rw [ha, hb]
        simp only [Option.bind_eq_bind, Option.bind_some]
        have : pullUniform (esize * (b - a)) pre.length ((pre ++ cur :: more).length + 1) (pre.length + 1) (pre ++ cur :: more) =
            some (pre ++ cur' :: rest) := by
          rw [← e]; simp
        rw [this, Option.bind_some, e']
      · refine ⟨pre ++ [cur'.take (esize * (b - a))], rest', by simp, by simp, by simp at hl ⊢; omega, ?_, ?_, ?_⟩
        · rw [← hf]
          simp only [List.flatten_append, List.flatten_cons]
          rw [hrf', hrf]
        · intro s x hx
          by_cases h1 : s < pre.length
          · rw [List.getElem?_append_left h1] at hx
            exact hp s x hx
          · have : s < (pre ++ [cur'.take (esize * (b - a))]).length := (List.getElem?_eq_some_iff.1 hx).1
            simp at this
            have : s = pre.length := by omega
            subst this
            rw [get_at] at hx
            cases hx
            exact ⟨a, b, ha, hb, by rw [List.length_take]; omega⟩
        · intro b' hb'
          rw [hb] at hb'
          cases hb'
          simp only [List.flatten_append, List.length_append, hsa, List.flatten_cons, List.flatten_nil, List.append_nil,
            List.length_take]
          omega

theorem balanceUniformBy_spec (esize : Nat) (data : List (List D)) (d : List Nat) (hd : Distribution d data.length)
    (htot : ∀ b, d[data.length]? = some b → data.flatten.length = esize * b) :
    ∃ data', balanceUniformBy esize data d = some data' ∧ data'.length = data.length ∧ data'.flatten = data.flatten ∧
      ∀ t x, data'[t]? = some x → ∃ a b, d[t]? = some a ∧ d[t + 1]? = some b ∧ x.length = esize * (b - a) := by
  obtain ⟨data', e, pre, rest, rfl, hl, hT, hf, hp, -⟩ := forLoop_inv (Nat.zero_le data.length) data (stepUniform esize d)
    (fun t s => BalInv esize d data.flatten data.length t s)
    ⟨[], data, rfl, rfl, rfl, rfl, by simp, by
      intro a ha
      rw [hd.zero] at ha
      cases ha; simp⟩
    (fun t _ ht s hI => step_spec esize d data.flatten data.length t s hd htot ht hI)
  have : rest = [] := by
    have := List.length_append (as := pre) (bs := rest)
    cases rest; rfl; simp at this hT; omega
  subst this
  exact ⟨_, e, hT, hf, by simpa using hp⟩

end Verif.Serial
