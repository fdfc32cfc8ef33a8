/-
Generic memory helpers: every access is bounds checked, `none` is undefined behaviour.
-/
namespace Verif

/-- Bounds-checked write `l[i] = v`; `none` models an out-of-range write (undefined behaviour in C++). -/
def wr {α : Type _} (l : List α) (i : Nat) (v : α) : Option (List α) :=
  if i < l.length then some (l.set i v) else none

theorem wr_eq_some {α : Type _} {l : List α} {i : Nat} {v : α} (h : i < l.length) :
    wr l i v = some (l.set i v) := by simp [wr, h]

theorem wr_isSome {α : Type _} {l : List α} {i : Nat} {v : α} :
    (wr l i v).isSome ↔ i < l.length := by
  unfold wr; split <;> simp_all

/-- `memcpy(buf + p, src, |src|)` into a buffer; `none` when it would leave the buffer. -/
def memcpyTo {β : Type _} (buf : List β) (p : Nat) (src : List β) : Option (List β) :=
  if p + src.length ≤ buf.length then some (buf.take p ++ src ++ buf.drop (p + src.length)) else none

/-- `memcpy(dst, buf + p, n)` out of a buffer; `none` when it would read past the buffer. -/
def memcpyFrom {β : Type _} (buf : List β) (p n : Nat) : Option (List β) :=
  if p + n ≤ buf.length then some ((buf.drop p).take n) else none

theorem memcpyTo_append {β : Type _} (a old b src : List β) (h : old.length = src.length) :
    memcpyTo (a ++ old ++ b) a.length src = some (a ++ src ++ b) := by
  unfold memcpyTo
  rw [if_pos (by simp [h])]
  congr 1
  rw [List.append_assoc a old b, List.take_append_of_le_length (by simp), List.take_length, ← h,
    List.drop_append, List.drop_append]
  simp [List.drop_of_length_le]

theorem memcpyFrom_append {β : Type _} (a src b : List β) :
    memcpyFrom (a ++ src ++ b) a.length src.length = some src := by
  unfold memcpyFrom
  rw [if_pos (by simp)]
  congr 1
  simp [List.append_assoc]

theorem memcpyTo_get {β : Type _} {buf src : List β} {p : Nat} (h : p + src.length ≤ buf.length) :
    ∃ r, memcpyTo buf p src = some r ∧ r.length = buf.length ∧
      ∀ q, r[q]? = if p ≤ q ∧ q < p + src.length then src[q - p]? else buf[q]? := by
  have hl : (buf.take p).length = p := by rw [List.length_take]; omega
  refine ⟨buf.take p ++ src ++ buf.drop (p + src.length), by unfold memcpyTo; rw [if_pos h], ?_, ?_⟩
  · simp only [List.length_append, hl, List.length_drop]; omega
  · intro q
    by_cases h1 : q < p
    · rw [if_neg (by omega), List.append_assoc, List.getElem?_append_left (by omega), List.getElem?_take, if_pos h1]
    · by_cases h2 : q < p + src.length
      · rw [if_pos (by omega), List.append_assoc, List.getElem?_append_right (by omega), hl, List.getElem?_append_left (by omega)]
      · rw [if_neg (by omega), List.getElem?_append_right (by rw [List.length_append, hl]; omega), List.getElem?_drop]
        congr 1
        rw [List.length_append, hl]; omega

end Verif
