import Verif.Model.Sfc
import Verif.Spec.Sfc
import Mathlib.Tactic.ByContra
namespace Verif.Sfc

theorem lb_le (l : List Nat) (v : Nat) : lowerBound l v ≤ l.length := List.findIdx_le_length

theorem lb_iff {l : List Nat} (hs : l.Pairwise (· < ·)) (v j : Nat) (hj : j < l.length) :
    l[j] < v ↔ j < lowerBound l v := by
  constructor
  · intro h
    by_contra hc
    have hlt : lowerBound l v < l.length := by omega
    have h1 : (!(decide (l[lowerBound l v] < v))) = true := List.findIdx_getElem (w := hlt)
    have h2 : l[lowerBound l v] ≤ l[j] := by
      by_cases he : lowerBound l v = j
      · simp [he]
      · exact Nat.le_of_lt (List.pairwise_iff_getElem.1 hs _ _ hlt hj (by omega))
    simp at h1; omega
  · intro h
    have := List.not_of_lt_findIdx h
    simpa using this

theorem lb_unique {l : List Nat} {v p : Nat} (hp : p ≤ l.length) (h1 : ∀ j (hj : j < l.length), j < p → l[j] < v)
    (h2 : ∀ j (hj : j < l.length), p ≤ j → v ≤ l[j]) : lowerBound l v = p := by
  apply Nat.le_antisymm
  · by_contra hc
    have hlt : p < l.length := by have := lb_le l v; omega
    have := List.not_of_lt_findIdx (by omega : p < lowerBound l v)
    have := h2 p hlt (Nat.le_refl _)
    simp only [Bool.not_eq_true', decide_eq_false_iff_not, not_not, Bool.not_eq_true, Bool.not_eq_false', decide_eq_true_eq] at *
    omega
  · by_contra hc
    have hlt : lowerBound l v < l.length := by omega
    have hh : (!(decide (l[lowerBound l v] < v))) = true := List.findIdx_getElem (w := hlt)
    have := h1 _ hlt (by omega)
    simp at hh; omega

/-- Membership through the lower bound. -/
theorem lb_mem {l : List Nat} (hs : l.Pairwise (· < ·)) (v : Nat) :
    l[lowerBound l v]? = some v ↔ v ∈ l := by
  constructor
  · exact fun h => List.mem_of_getElem? h
  · intro h
    obtain ⟨j, hj, rfl⟩ := List.mem_iff_getElem.1 h
    have : lowerBound l l[j] = j := by
      apply lb_unique (by omega)
      · intro i hi hij; exact List.pairwise_iff_getElem.1 hs _ _ hi hj hij
      · intro i hi hij
        by_cases he : j = i
        · simp [he]
        · exact Nat.le_of_lt (List.pairwise_iff_getElem.1 hs _ _ hj hi (by omega))
    rw [this]; simp

section
variable {s : Curve} {B D : Nat} {r : List (List Nat)}

theorem lv_eq {r : List (List Nat)} {i : Nat} {l : List Nat} (h : r[i]? = some l) : lv r i = l := by simp [lv, h]

theorem lv_sorted (hwf : WF B D r) (i : Nat) : (lv r i).Pairwise (· < ·) := by
  unfold lv
  cases h : r[i]? with
  | none => simp
  | some l => exact hwf.sorted l (List.mem_of_getElem? h)

theorem width_pos (hB : 2 ≤ B) (D i : Nat) : 0 < width B D i := Nat.pow_pos (by omega)

theorem width_succ {i : Nat} (h : i < D) : width B D i = width B D (i + 1) * B := by
  unfold width
  rw [← Nat.pow_succ]; congr 1; omega

theorem width_split {i d : Nat} (h1 : i ≤ d) (h2 : d ≤ D) : width B D i = width B D d * B ^ (d - i) := by
  unfold width
  rw [← Nat.pow_add]; congr 1; omega

theorem width_div (hB : 2 ≤ B) {i : Nat} (h : i < D) : width B D i / B = width B D (i + 1) := by
  rw [width_succ h, Nat.mul_div_cancel _ (by omega)]

theorem div_split {i d b : Nat} (h1 : i ≤ d) (h2 : d ≤ D) : b / width B D d / B ^ (d - i) = b / width B D i := by
  rw [Nat.div_div_eq_div_mul, ← width_split h1 h2]

/-- The iterators point to the lower bounds of `b`. -/
def At (B D : Nat) (r : List (List Nat)) (b : Nat) (its : List Nat) : Prop :=
  its.length = r.length ∧ ∀ i, i < r.length → its[i]? = some (lowerBound (lv r i) (b / width B D i))

theorem bucketSize_ge (dim : Nat) : 2 ≤ bucketSize dim := by unfold bucketSize; split <;> omega

theorem buckets_eq (hdim : s.dim = 2 ∨ s.dim = 3) : buckets s.dim s.depth = width (bucketSize s.dim) s.depth 0 := by
  unfold buckets bucketSize width
  rcases hdim with h | h <;> simp [h, ← Nat.pow_mul]
  · rw [show (4 : Nat) = 2 ^ 2 by rfl, ← Nat.pow_mul, Nat.mul_comm]
  · rw [show (8 : Nat) = 2 ^ 3 by rfl, ← Nat.pow_mul, Nat.mul_comm]

/-- Value of the variable `c` at the beginning of iteration `i`. -/
def cAt (B D i : Nat) : Nat := if i ≤ D then width B D i else 0

theorem cAt_step (hB : 2 ≤ B) (i : Nat) : cAt B D i / B = cAt B D (i + 1) := by
  unfold cAt
  by_cases h : i < D
  · rw [if_pos (by omega), if_pos (by omega), width_div hB h]
  · by_cases h2 : i = D
    · subst h2
      simp only [Nat.le_refl, if_true, width, Nat.sub_self, Nat.pow_zero]
      rw [if_neg (by omega), Nat.div_eq_of_lt (by omega)]
    · rw [if_neg (by omega), if_neg (by omega)]; simp

theorem initIters_spec (hdim : s.dim = 2 ∨ s.dim = 3) (hwf : WF (bucketSize s.dim) s.depth s.refined) (b : Nat) :
    ∃ its, initIters s b = some its ∧ At (bucketSize s.dim) s.depth s.refined b its := by
  have hB := bucketSize_ge s.dim
  have := forLoop_inv (a := 0) (b := s.refined.length) (Nat.zero_le _) (([] : List Nat), buckets s.dim s.depth)
    (fun i (its, c) => do
      let l ← s.refined[i]?
      let q ← divU b c
      some (its ++ [lowerBound l q], c / bucketSize s.dim))
    (fun n st => st.2 = cAt (bucketSize s.dim) s.depth n ∧ st.1.length = n ∧
      ∀ i, i < n → st.1[i]? = some (lowerBound (lv s.refined i) (b / width (bucketSize s.dim) s.depth i)))
    ⟨by rw [buckets_eq hdim]; rfl, rfl, fun i h => by omega⟩ (by
      rintro i - hi ⟨its, c⟩ ⟨hc, hl, h⟩
      simp only at hc hl h
      have hle : i ≤ s.depth := by have := hwf.levels; omega
      have hl' : s.refined[i]? = some (lv s.refined i) := by simp [lv, hi]
      have hcw : c = width (bucketSize s.dim) s.depth i := by rw [hc, cAt, if_pos hle]
      have hc0 : c ≠ 0 := by rw [hcw]; exact Nat.ne_of_gt (width_pos hB _ _)
      refine ⟨_, by simp only [hl', divU, hc0, if_false, Option.bind_eq_bind, Option.bind_some]; rfl, ?_, ?_, ?_⟩
      · simp only; rw [hc, cAt_step hB]
      · simp [hl]
      · intro j hj
        simp only
        by_cases hj' : j < i
        · rw [List.getElem?_append_left (by omega)]; exact h j hj'
        · have : j = i := by omega
          subst this
          rw [List.getElem?_append_right (by omega)]
          simp [hl, hcw])
  obtain ⟨⟨its, c⟩, e, hc, hl, h⟩ := this
  exact ⟨its, by unfold initIters; rw [e]; rfl, hl, h⟩

/-- Moving from `b0` to `b` needs at most one step in every level. -/
def OneStep (B D : Nat) (r : List (List Nat)) (b0 b : Nat) : Prop :=
  b0 ≤ b ∧ ∀ i, i < r.length → ∀ x ∈ lv r i, b0 / width B D i ≤ x → x < b / width B D i → x = b0 / width B D i

theorem advance_level {l : List Nat} (hs : l.Pairwise (· < ·)) {v0 v : Nat} (hv : v0 ≤ v)
    (h1 : ∀ x ∈ l, v0 ≤ x → x < v → x = v0) :
    (lowerBound l v0 = l.length → lowerBound l v = l.length) ∧
    (∀ h : lowerBound l v0 < l.length,
      lowerBound l v = if l[lowerBound l v0] < v then lowerBound l v0 + 1 else lowerBound l v0) := by
  constructor
  · intro h
    apply lb_unique (Nat.le_refl _)
    · intro j hj _
      have := (lb_iff hs v0 j hj).2 (by omega)
      omega
    · intro j hj h; omega
  · intro h
    have hge : v0 ≤ l[lowerBound l v0] := by
      have := lb_iff hs v0 _ h
      omega
    split
    · rename_i hx
      have he := h1 _ (List.getElem_mem h) hge hx
      apply lb_unique (by omega)
      · intro j hj hjl
        by_cases hj' : j = lowerBound l v0
        · subst hj'; exact hx
        · have := (lb_iff hs v0 j hj).2 (by omega)
          omega
      · intro j hj hjl
        by_contra hc
        have hlt := List.pairwise_iff_getElem.1 hs _ _ h hj (by omega)
        have := h1 _ (List.getElem_mem hj) (by omega) (by omega)
        omega
    · rename_i hx
      apply lb_unique (by omega)
      · intro j hj hjl
        have := (lb_iff hs v0 j hj).2 (by omega)
        omega
      · intro j hj hjl
        by_cases hj' : j = lowerBound l v0
        · subst hj'; omega
        · have hlt := List.pairwise_iff_getElem.1 hs _ _ h hj (by omega)
          omega

theorem advance_spec (hdim : s.dim = 2 ∨ s.dim = 3) (hwf : WF (bucketSize s.dim) s.depth s.refined) {b0 b : Nat} {its : List Nat}
    (hat : At (bucketSize s.dim) s.depth s.refined b0 its) (h1 : OneStep (bucketSize s.dim) s.depth s.refined b0 b) :
    ∃ its', advance s b its = some its' ∧ At (bucketSize s.dim) s.depth s.refined b its' := by
  have hB := bucketSize_ge s.dim
  have := forLoop_inv (a := 0) (b := s.refined.length) (Nat.zero_le _) (its, buckets s.dim s.depth)
    (fun i (its, c) => do
      let l ← s.refined[i]?
      let p ← its[i]?
      let its ← if p ≠ l.length then do
          let x ← l[p]?
          let q ← divU b c
          if x < q then wr its i (p + 1) else some its
        else some its
      some (its, c / bucketSize s.dim))
    (fun n st => st.2 = cAt (bucketSize s.dim) s.depth n ∧ st.1.length = s.refined.length ∧
      (∀ i, i < n → st.1[i]? = some (lowerBound (lv s.refined i) (b / width (bucketSize s.dim) s.depth i))) ∧
      (∀ i, n ≤ i → i < s.refined.length →
        st.1[i]? = some (lowerBound (lv s.refined i) (b0 / width (bucketSize s.dim) s.depth i))))
    ⟨by rw [buckets_eq hdim]; rfl, hat.1, fun i h => by omega, fun i _ h => hat.2 i h⟩ (by
      rintro i - hi ⟨its, c⟩ ⟨hc, hl, ha, hb⟩
      simp only at hc hl ha hb
      have hle : i ≤ s.depth := by have := hwf.levels; omega
      have hl' : s.refined[i]? = some (lv s.refined i) := by simp [lv, hi]
      have hcw : c = width (bucketSize s.dim) s.depth i := by rw [hc, cAt, if_pos hle]
      have hc0 : c ≠ 0 := by rw [hcw]; exact Nat.ne_of_gt (width_pos hB _ _)
      have hlev := advance_level (lv_sorted hwf i) (Nat.div_le_div_right (c := width (bucketSize s.dim) s.depth i) h1.1)
        (h1.2 i hi)
      have hp := hb i (Nat.le_refl _) hi
      have hfin : ∀ its' : List Nat, its'.length = s.refined.length → (∀ j, j ≠ i → its'[j]? = its[j]?) →
          its'[i]? = some (lowerBound (lv s.refined i) (b / width (bucketSize s.dim) s.depth i)) →
          (c / bucketSize s.dim = cAt (bucketSize s.dim) s.depth (i + 1) ∧ its'.length = s.refined.length ∧
          (∀ j, j < i + 1 → its'[j]? = some (lowerBound (lv s.refined j) (b / width (bucketSize s.dim) s.depth j))) ∧
          (∀ j, i + 1 ≤ j → j < s.refined.length →
            its'[j]? = some (lowerBound (lv s.refined j) (b0 / width (bucketSize s.dim) s.depth j)))) := by
        intro its' h1 h2 h3
        refine ⟨by rw [hc, cAt_step hB], h1, ?_, ?_⟩
        · intro j hj
          by_cases hji : j = i
          · subst hji; exact h3
          · rw [h2 j hji]; exact ha j (by omega)
        · intro j hj hjl
          rw [h2 j (by omega)]; exact hb j (by omega) hjl
      simp only [hl', hp, Option.bind_eq_bind, Option.bind_some, divU, hc0, if_false]
      by_cases hend : lowerBound (lv s.refined i) (b0 / width (bucketSize s.dim) s.depth i) = (lv s.refined i).length
      · simp only [hend, ne_eq, not_true_eq_false, if_false, Option.bind_some]
        exact ⟨_, rfl, hfin its hl (fun _ _ => rfl) (by rw [hp, hend, hlev.1 hend])⟩
      · have hlt : lowerBound (lv s.refined i) (b0 / width (bucketSize s.dim) s.depth i) < (lv s.refined i).length := by
          have := lb_le (lv s.refined i) (b0 / width (bucketSize s.dim) s.depth i); omega
        have hlev2 := hlev.2 hlt
        rw [if_pos hend, List.getElem?_eq_getElem hlt]
        simp only [Option.bind_some]
        rw [hcw] at *
        split
        · rename_i hx
          rw [if_pos hx] at hlev2
          rw [wr_eq_some (by omega)]
          simp only [Option.bind_some]
          refine ⟨_, rfl, hfin _ (by simp [hl]) (fun j hj => by rw [List.getElem?_set_ne (Ne.symm hj)]) ?_⟩
          rw [List.getElem?_set_self (by omega), hlev2]
        · rename_i hx
          rw [if_neg hx] at hlev2
          exact ⟨_, rfl, hfin its hl (fun _ _ => rfl) (by rw [hp, hlev2])⟩)
  obtain ⟨⟨its', c⟩, e, hc, hl, h, -⟩ := this
  exact ⟨its', by unfold advance; rw [e]; rfl, hl, h⟩

theorem descend_spec (hwf : WF (bucketSize s.dim) s.depth s.refined) {b : Nat} {its : List Nat}
    (hat : At (bucketSize s.dim) s.depth s.refined b its) :
    ∀ n d, s.depth - d = n → d ≤ s.depth → (∀ j, j < d → b / width (bucketSize s.dim) s.depth j ∈ lv s.refined j) →
    ∃ d', descend s b its d (width (bucketSize s.dim) s.depth d) = some (d', width (bucketSize s.dim) s.depth d') ∧
      Leaf (bucketSize s.dim) s.depth s.refined d' (b / width (bucketSize s.dim) s.depth d') := by
  have hB := bucketSize_ge s.dim
  have hleaf : ∀ d, d ≤ s.depth → (∀ j, j < d → b / width (bucketSize s.dim) s.depth j ∈ lv s.refined j) →
      (d = s.depth ∨ b / width (bucketSize s.dim) s.depth d ∉ lv s.refined d) →
      Leaf (bucketSize s.dim) s.depth s.refined d (b / width (bucketSize s.dim) s.depth d) := by
    intro d hd ha hb
    refine ⟨hd, ?_, hb⟩
    intro j hj
    rw [div_split (by omega) hd]; exact ha j hj
  intro n
  induction n with
  | zero =>
      intro d hn hd ha
      have : d = s.depth := by omega
      rw [descend, if_neg (by omega)]
      exact ⟨d, rfl, hleaf d hd ha (Or.inl this)⟩
  | succ n ih =>
      intro d hn hd ha
      rw [descend, if_pos (by omega)]
      have hlen : d < s.refined.length := by
        by_contra hc
        obtain ⟨l, hl, rfl⟩ := hwf.last (by omega)
        have hne : s.refined ≠ [] := by intro h; simp [h] at hl
        have hpos : 0 < s.refined.length := List.length_pos_iff.2 hne
        rw [List.getLast?_eq_getElem?] at hl
        have := ha (s.refined.length - 1) (by omega)
        rw [lv_eq hl] at this
        simp at this
      have hl' : s.refined[d]? = some (lv s.refined d) := by simp [lv, hlen]
      have hmem := lb_mem (lv_sorted hwf d) (b / width (bucketSize s.dim) s.depth d)
      have hw0 : width (bucketSize s.dim) s.depth d ≠ 0 := Nat.ne_of_gt (width_pos hB _ _)
      simp only [hl', hat.2 d hlen, Option.bind_eq_bind, Option.bind_some]
      by_cases hend : lowerBound (lv s.refined d) (b / width (bucketSize s.dim) s.depth d) = (lv s.refined d).length
      · rw [if_neg (by simpa using hend)]
        refine ⟨d, rfl, hleaf d hd ha (Or.inr ?_)⟩
        rw [← hmem, hend]; simp
      · rw [if_pos hend]
        have hlt : lowerBound (lv s.refined d) (b / width (bucketSize s.dim) s.depth d) < (lv s.refined d).length := by
          have := lb_le (lv s.refined d) (b / width (bucketSize s.dim) s.depth d); omega
        rw [List.getElem?_eq_getElem hlt] at hmem ⊢
        simp only [Option.bind_some, divU, hw0, if_false]
        by_cases hx : (lv s.refined d)[lowerBound (lv s.refined d) (b / width (bucketSize s.dim) s.depth d)] =
            b / width (bucketSize s.dim) s.depth d
        · rw [if_pos hx, width_div hB (by omega)]
          apply ih (d + 1) (by omega) (by omega)
          intro j hj
          by_cases hjd : j = d
          · subst hjd; exact hmem.1 (by rw [hx])
          · exact ha j (by omega)
        · rw [if_neg hx]
          refine ⟨d, rfl, hleaf d hd ha (Or.inr ?_)⟩
          rw [← hmem]
          simpa using hx

theorem leaf_unique {r : List (List Nat)} {b d d' : Nat} (h : Leaf B D r d (b / width B D d))
    (h' : Leaf B D r d' (b / width B D d')) : d = d' := by
  have key : ∀ d d', Leaf B D r d (b / width B D d) → Leaf B D r d' (b / width B D d') → ¬ d < d' := by
    intro d d' h h' hlt
    have := h'.2.1 d hlt
    rw [div_split (by omega) h'.1] at this
    rcases h.2.2 with h3 | h3
    · have := h'.1; omega
    · exact h3 this
  have h1 := key d d' h h'
  have h2 := key d' d h' h
  omega

theorem leafStart_iff (hB : 2 ≤ B) {r : List (List Nat)} {b d : Nat} (h : Leaf B D r d (b / width B D d)) :
    LeafStart B D r b ↔ width B D d ∣ b := by
  constructor
  · rintro ⟨d', x, hl, rfl⟩
    have hx : x * width B D d' / width B D d' = x := Nat.mul_div_cancel _ (width_pos hB _ _)
    have := leaf_unique h (d' := d') (by rw [hx]; exact hl)
    subst this
    exact ⟨x, Nat.mul_comm _ _⟩
  · intro hd
    exact ⟨d, _, h, (Nat.div_mul_cancel hd).symm⟩

theorem mem_up (hwf : WF B D r) : ∀ n i x, x ∈ lv r (i + n) → x / B ^ n ∈ lv r i := by
  intro n
  induction n with
  | zero => intro i x h; simpa using h
  | succ n ih =>
      intro i x h
      have := ih i _ (hwf.parent (i + n) x h)
      rwa [Nat.div_div_eq_div_mul, ← Nat.pow_succ'] at this

/-- From one leaf to the next one. -/
theorem next_leaf (hB : 2 ≤ B) {r : List (List Nat)} (hwf : WF B D r) {b d : Nat} (h : Leaf B D r d (b / width B D d))
    (hd : width B D d ∣ b) :
    OneStep B D r b (b + width B D d) ∧
    ∀ d', Leaf B D r d' ((b + width B D d) / width B D d') → LeafStart B D r (b + width B D d) := by
  have hw := width_pos hB D d
  constructor
  · refine ⟨by omega, ?_⟩
    intro i hi x hx h1 h2
    by_cases hid0 : d = i
    · subst hid0
      rw [Nat.add_div_right _ hw] at h2; omega
    by_cases hid : d ≤ i
    · exfalso
      have hiD : i ≤ D := by have := hwf.levels; omega
      -- the ancestor of `x` on level `d` is the leaf itself
      have hup := mem_up hwf (i - d) d x (by rw [Nat.add_sub_cancel' hid]; exact hx)
      have hwi := width_pos hB D i
      have hsp := width_split (B := B) hid hiD
      have hpB : 0 < B ^ (i - d) := Nat.pow_pos (by omega)
      obtain ⟨q, rfl⟩ := hd
      have e1 : width B D d * q / width B D i = q * B ^ (i - d) := by
        rw [hsp, Nat.mul_assoc, Nat.mul_div_cancel_left _ hwi, Nat.mul_comm]
      have e2 : (width B D d * q + width B D d) / width B D i = (q + 1) * B ^ (i - d) := by
        rw [← Nat.mul_succ, hsp, Nat.mul_assoc, Nat.mul_div_cancel_left _ hwi, Nat.mul_comm]
      have e3 : width B D d * q / width B D d = q := Nat.mul_div_cancel_left _ hw
      rw [e1] at h1; rw [e2] at h2; rw [e3] at h
      have hxq : x / B ^ (i - d) = q := by
        rw [Nat.div_eq_iff hpB]
        rw [Nat.add_mul] at h2
        omega
      rw [hxq] at hup
      rcases h.2.2 with h3 | h3
      · omega
      · exact h3 hup
    · have hle : width B D d ≤ width B D i := by
        rw [width_split (B := B) (show i ≤ d by omega) h.1]
        exact Nat.le_mul_of_pos_right _ (Nat.pow_pos (by omega))
      have : (b + width B D d) / width B D i ≤ b / width B D i + 1 := by
        rw [← Nat.add_div_right _ (width_pos hB D i)]
        exact Nat.div_le_div_right (by omega)
      omega
  · intro d' h'
    rw [leafStart_iff hB h']
    by_cases hdd : d ≤ d'
    · have : width B D d' ∣ width B D d := ⟨_, width_split hdd h'.1⟩
      exact Nat.dvd_add (Nat.dvd_trans this hd) this
    · by_contra hc
      have hw' := width_pos hB D d'
      have hsp := width_split (B := B) (show d' ≤ d by omega) h.1
      have heq : (b + width B D d) / width B D d' = b / width B D d' := by
        obtain ⟨q, rfl⟩ := hd
        rw [← Nat.mul_succ] at hc ⊢
        rw [hsp] at hc ⊢
        rw [Nat.mul_div_mul_left _ _ hw, Nat.mul_div_mul_left _ _ hw]
        have hpB : 0 < B ^ (d - d') := Nat.pow_pos (by omega)
        rw [Nat.mul_dvd_mul_iff_left hw] at hc
        rw [Nat.succ_div, if_neg hc, Nat.add_zero]
      rw [heq] at h'
      have hm := h.2.1 d' (by omega)
      rw [div_split (by omega) h.1] at hm
      rcases h'.2.2 with h3 | h3
      · have := h.1; omega
      · exact h3 hm

theorem iterLoop_spec (hdim : s.dim = 2 ∨ s.dim = 3) (hwf : WF (bucketSize s.dim) s.depth s.refined) {stop : Nat}
    (hstop : LeafStart (bucketSize s.dim) s.depth s.refined stop) :
    ∀ n b b0 its out, stop - b = n → b ≤ stop → LeafStart (bucketSize s.dim) s.depth s.refined b →
      At (bucketSize s.dim) s.depth s.refined b0 its → OneStep (bucketSize s.dim) s.depth s.refined b0 b →
      ∃ new, iterLoop s stop b its out = some (out ++ new) ∧
        (∀ c ∈ new, Leaf (bucketSize s.dim) s.depth s.refined c.1 c.2) ∧
        covered (bucketSize s.dim) s.depth new = List.range' b (stop - b) := by
  have hB := bucketSize_ge s.dim
  intro n
  induction n using Nat.strongRecOn with
  | ind n ih =>
    intro b b0 its out hn hb hls hat h1
    rw [iterLoop]
    by_cases hlt : b < stop
    · rw [dif_pos hlt]
      obtain ⟨its', e1, hat'⟩ := advance_spec hdim hwf hat h1
      obtain ⟨d, e2, hleaf⟩ := descend_spec hwf hat' s.depth 0 (by omega) (by omega) (fun j h => by omega)
      have hdvd := (leafStart_iff hB hleaf).1 hls
      have hw := width_pos hB s.depth d
      obtain ⟨hone, hnext⟩ := next_leaf hB hwf hleaf hdvd
      -- `stop` is not inside this leaf
      have hle : b + width (bucketSize s.dim) s.depth d ≤ stop := by
        by_contra hc
        obtain ⟨q, hq⟩ := hdvd
        have hsd : stop / width (bucketSize s.dim) s.depth d = b / width (bucketSize s.dim) s.depth d := by
          rw [hq, Nat.mul_div_cancel_left _ hw, Nat.div_eq_iff hw]
          rw [hq, Nat.mul_comm] at hc hlt
          omega
        have hls2 := (leafStart_iff hB (b := stop) (d := d) (by rw [hsd]; exact hleaf)).1 hstop
        obtain ⟨q', hq'⟩ := hls2
        rw [hq, hq', Nat.mul_div_cancel_left _ hw, Nat.mul_div_cancel_left _ hw] at hsd
        rw [hq, hq', hsd] at hlt; omega
      have hls' : LeafStart (bucketSize s.dim) s.depth s.refined (b + width (bucketSize s.dim) s.depth d) := by
        obtain ⟨its2, -, hat2⟩ := initIters_spec hdim hwf (b + width (bucketSize s.dim) s.depth d)
        obtain ⟨d', -, hleaf'⟩ := descend_spec hwf hat2 s.depth 0 (by omega) (by omega) (fun j h => by omega)
        exact hnext d' hleaf'
      obtain ⟨new, e3, hnew, hcov⟩ := ih (stop - (b + width (bucketSize s.dim) s.depth d)) (by omega)
        (b + width (bucketSize s.dim) s.depth d) b its' (out ++ [(d, b / width (bucketSize s.dim) s.depth d)]) rfl hle hls' hat' hone
      refine ⟨(d, b / width (bucketSize s.dim) s.depth d) :: new, ?_, ?_, ?_⟩
      · simp only [e1, buckets_eq hdim, e2]
        rw [dif_neg (by omega), e3]
        simp
      · intro c hc
        rcases List.mem_cons.1 hc with rfl | hc
        · exact hleaf
        · exact hnew c hc
      · simp only [covered, List.flatMap_cons] at hcov ⊢
        rw [hcov, Nat.div_mul_cancel hdvd]
        have : stop - b = width (bucketSize s.dim) s.depth d + (stop - (b + width (bucketSize s.dim) s.depth d)) := by omega
        rw [this, ← List.range'_append_1]
    · rw [dif_neg hlt]
      exact ⟨[], by simp, by simp, by simp [covered, show stop - b = 0 by omega]⟩

end
end Verif.Sfc
