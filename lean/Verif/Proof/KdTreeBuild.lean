import Verif.Proof.KdTree
/-! The ranges of the nodes and the loop over the levels. -/
namespace Verif.KdTree

open Verif.Csx

variable {K : Type}

/-- The borders of the ranges of the nodes of level `l`: node `2^l + i` has the positions `[cut l i, cut l (i + 1))`; `S` are the indices of the splitters. -/
def cut (S : Nat → Nat) (n : Nat) : Nat → Nat → Nat
  | 0, i => if i = 0 then 0 else n
  | l + 1, i => if i % 2 = 0 then cut S n l (i / 2) else S (2 ^ l + i / 2)

theorem cut_congr {S S' : Nat → Nat} {n : Nat} : ∀ l i, i ≤ 2 ^ l → (∀ k, k < 2 ^ l → S k = S' k) → cut S n l i = cut S' n l i := by
  intro l
  induction l with
  | zero => intro i _ _; rfl
  | succ l ih =>
      intro i hi h
      have h2 : 2 ^ (l + 1) = 2 * 2 ^ l := by rw [Nat.pow_succ]; omega
      unfold cut
      by_cases hm : i % 2 = 0
      · rw [if_pos hm, if_pos hm]; exact ih _ (by omega) fun k hk => h k (by omega)
      · rw [if_neg hm, if_neg hm]; exact h _ (by omega)

theorem cut_zero (S : Nat → Nat) (n l : Nat) : cut S n l 0 = 0 := by
  induction l with
  | zero => rfl
  | succ l ih => unfold cut; rw [if_pos rfl]; exact ih

theorem cut_last (S : Nat → Nat) (n l : Nat) : cut S n l (2 ^ l) = n := by
  induction l with
  | zero => rfl
  | succ l ih =>
      have h2 : 2 ^ (l + 1) = 2 * 2 ^ l := by rw [Nat.pow_succ]; omega
      unfold cut; rw [if_pos (by omega), show 2 ^ (l + 1) / 2 = 2 ^ l by omega]; exact ih

theorem cut_double (S : Nat → Nat) (n l i : Nat) : cut S n (l + 1) (2 * i) = cut S n l i := by
  conv => lhs; unfold cut
  rw [if_pos (by omega), show 2 * i / 2 = i by omega]

theorem cut_odd (S : Nat → Nat) (n l i : Nat) : cut S n (l + 1) (2 * i + 1) = S (2 ^ l + i) := by
  conv => lhs; unfold cut
  rw [if_neg (by omega), show (2 * i + 1) / 2 = i by omega]

theorem cut_fine (S : Nat → Nat) (n l i k : Nat) : cut S n (l + k) (2 ^ k * i) = cut S n l i := by
  induction k with
  | zero => rw [Nat.pow_zero, Nat.one_mul]; rfl
  | succ k ih =>
      rw [← Nat.add_assoc, Nat.pow_succ, Nat.mul_comm (2 ^ k) 2, Nat.mul_assoc, cut_double, ih]

/-- The indices of the splitters. -/
def idxOf (sp : List (Splitter K)) (k : Nat) : Nat := (sp[k]?.map (·.index)).getD 0

theorem idxOf_some {sp : List (Splitter K)} {k : Nat} {q : Splitter K} (h : sp[k]? = some q) : idxOf sp k = q.index := by unfold idxOf; rw [h]; rfl

theorem idxOf_map {sp : List (Splitter K)} {k : Nat} (h : k < sp.length) : sp[k]?.map (·.index) = some (idxOf sp k) := by
  unfold idxOf; rw [List.getElem?_eq_getElem h]; rfl

theorem beginOf_cut (sp : List (Splitter K)) (n : Nat) : ∀ l i fuel, i < 2 ^ l → 2 ^ l ≤ sp.length → 2 ^ l + i < fuel → beginOf sp fuel (2 ^ l + i) = some (cut (idxOf sp) n l i) := by
  intro l
  induction l with
  | zero =>
      intro i fuel hi hs hf
      obtain ⟨f, rfl⟩ : ∃ f, fuel = f + 1 := ⟨fuel - 1, by omega⟩
      have : i = 0 := by simpa using hi
      subst this
      rfl
  | succ l ih =>
      intro i fuel hi hs hf
      obtain ⟨f, rfl⟩ : ∃ f, fuel = f + 1 := ⟨fuel - 1, by omega⟩
      have h2 : 2 ^ (l + 1) = 2 * 2 ^ l := by rw [Nat.pow_succ]; omega
      have h0 : 0 < 2 ^ l := Nat.two_pow_pos l
      unfold beginOf cut
      by_cases hm : i % 2 = 0
      · rw [if_pos (by omega), if_pos hm, show (2 ^ (l + 1) + i) / 2 = 2 ^ l + i / 2 by omega]
        exact ih _ _ (by omega) (by omega) (by omega)
      · rw [if_neg (by omega), if_neg hm, if_neg (by omega), show (2 ^ (l + 1) + i) / 2 = 2 ^ l + i / 2 by omega, idxOf_map (by omega)]

theorem endOf_cut (sp : List (Splitter K)) (n : Nat) : ∀ l i fuel, i < 2 ^ l → 2 ^ l ≤ sp.length → 2 ^ l + i < fuel →
    endOf sp n fuel (2 ^ l + i) = some (cut (idxOf sp) n l (i + 1)) := by
  intro l
  induction l with
  | zero =>
      intro i fuel hi hs hf
      have : i = 0 := by simpa using hi
      subst this
      obtain ⟨f, rfl⟩ : ∃ f, fuel = f + 1 + 1 := ⟨fuel - 2, by simp at hf; omega⟩
      rfl
  | succ l ih =>
      intro i fuel hi hs hf
      obtain ⟨f, rfl⟩ : ∃ f, fuel = f + 1 := ⟨fuel - 1, by omega⟩
      have h2 : 2 ^ (l + 1) = 2 * 2 ^ l := by rw [Nat.pow_succ]; omega
      have h0 : 0 < 2 ^ l := Nat.two_pow_pos l
      unfold endOf cut
      by_cases hm : i % 2 = 0
      · rw [if_neg (by omega), if_neg (by omega), if_neg (by omega), show (2 ^ (l + 1) + i) / 2 = 2 ^ l + (i + 1) / 2 by omega, idxOf_map (by omega)]
      · rw [if_pos (by omega), if_pos (by omega), show (2 ^ (l + 1) + i) / 2 = 2 ^ l + i / 2 by omega, show (i + 1) / 2 = i / 2 + 1 by omega]
        exact ih _ _ (by omega) (by omega) (by omega)

/-- What the splitting of a node achieves: `PL` (`PR`) for the points of the left (right) part, `G` for the splitter, `F` for the order of the points. -/
structure NodeSpec (n : Nat) (node : (ll b e : Nat) → List Nat → Option (List Nat × Splitter K)) (PL PR : Nat → Splitter K → Nat → Prop) (G : Nat → Splitter K → Prop)
    (F : Nat → Nat → Nat → Splitter K → List Nat → Prop) : Prop where
  run : ∀ ll b e perm, Valid n perm → b ≤ e → e ≤ perm.length → ∃ perm' q, node ll b e perm = some (perm', q) ∧ PermIn b e perm perm' ∧ b ≤ q.index ∧ q.index ≤ e ∧
    (b < e → b < q.index) ∧ G ll q ∧ (∀ p x, b ≤ p → p < q.index → perm'[p]? = some x → PL ll q x) ∧ (∀ p x, q.index ≤ p → p < e → perm'[p]? = some x → PR ll q x) ∧
    F ll b e q perm'
  stable : ∀ ll b e q perm perm', F ll b e q perm → (∀ p, b ≤ p → p < e → perm'[p]? = perm[p]?) → F ll b e q perm'

/-- Node `2^l + i` is split. -/
def NodeOk (n : Nat) (PL PR : Nat → Splitter K → Nat → Prop) (G : Nat → Splitter K → Prop) (sp : List (Splitter K)) (perm : List Nat) (l i : Nat) : Prop :=
  ∃ q, sp[2 ^ l + i]? = some q ∧ cut (idxOf sp) n l i ≤ q.index ∧ q.index ≤ cut (idxOf sp) n l (i + 1) ∧ (cut (idxOf sp) n l i < cut (idxOf sp) n l (i + 1) → cut (idxOf sp) n l i < q.index) ∧
    G l q ∧ (∀ p x, cut (idxOf sp) n l i ≤ p → p < q.index → perm[p]? = some x → PL l q x) ∧ (∀ p x, q.index ≤ p → p < cut (idxOf sp) n l (i + 1) → perm[p]? = some x → PR l q x)

variable {n : Nat} {PL PR : Nat → Splitter K → Nat → Prop} {G : Nat → Splitter K → Prop}

theorem cut_step {sp : List (Splitter K)} {perm : List Nat} {L : Nat} (h : ∀ l i, l < L → i < 2 ^ l → NodeOk n PL PR G sp perm l i) :
    ∀ l, l ≤ L → ∀ i, i < 2 ^ l → cut (idxOf sp) n l i ≤ cut (idxOf sp) n l (i + 1) := by
  intro l
  induction l with
  | zero => intro _ i hi; have : i = 0 := by simpa using hi
            subst this; exact Nat.zero_le _
  | succ l ih =>
      intro hl i hi
      have h2 : 2 ^ (l + 1) = 2 * 2 ^ l := by rw [Nat.pow_succ]; omega
      obtain ⟨q, h1, h3, h4, _⟩ := h l (i / 2) (by omega) (by omega)
      have hq := idxOf_some h1
      by_cases hm : i % 2 = 0
      · obtain ⟨j, rfl⟩ : ∃ j, i = 2 * j := ⟨i / 2, by omega⟩
        rw [show 2 * j / 2 = j by omega] at h1 h3 h4 hq
        rw [cut_double, cut_odd, hq]; exact h3
      · obtain ⟨j, rfl⟩ : ∃ j, i = 2 * j + 1 := ⟨i / 2, by omega⟩
        rw [show (2 * j + 1) / 2 = j by omega] at h1 h3 h4 hq
        rw [cut_odd, show 2 * j + 1 + 1 = 2 * (j + 1) by omega, cut_double, hq]; exact h4

theorem mono_of_step {c : Nat → Nat} {m : Nat} (h : ∀ i, i < m → c i ≤ c (i + 1)) : ∀ i j, i ≤ j → j ≤ m → c i ≤ c j := by
  intro i j hij
  induction j with
  | zero => intro _; have : i = 0 := by omega
            subst this; exact Nat.le_refl _
  | succ j ih =>
      intro hj
      by_cases he : i = j + 1
      · subst he; exact Nat.le_refl _
      · exact Nat.le_trans (ih (by omega) (by omega)) (h j (by omega))

/-- Values between two borders are not changed when a range of positions inside or outside is permuted. -/
theorem keep_between {b e a c : Nat} {perm perm' : List Nat} {P : Nat → Prop} (hp : PermIn b e perm perm') (he : e ≤ perm.length) (hd : (a ≤ b ∧ e ≤ c) ∨ e ≤ a ∨ c ≤ b)
    (h : ∀ p x, a ≤ p → p < c → perm[p]? = some x → P x) : ∀ p x, a ≤ p → p < c → perm'[p]? = some x → P x := by
  intro p x h1 h2 hx
  by_cases hin : b ≤ p ∧ p < e
  · obtain ⟨q, q1, q2, q3⟩ := hp.inside he hin.1 hin.2 hx
    exact h q x (by omega) (by omega) q3
  · rw [hp.2 p (by omega)] at hx
    exact h p x h1 h2 hx

theorem nodeOk_step {sp sp' : List (Splitter K)} {perm perm' : List Nat} {ll i l j : Nat} {q : Splitter K} (hlev : ∀ l i, l < ll → i < 2 ^ l → NodeOk n PL PR G sp perm l i)
    (hn : perm.length = n) (hi : i < 2 ^ ll) (hsp : sp' = sp.set (2 ^ ll + i) q) (hl : 2 ^ ll + i < sp.length)
    (hp : PermIn (cut (idxOf sp) n ll i) (cut (idxOf sp) n ll (i + 1)) perm perm') (hj : j < 2 ^ l) (hlj : l < ll ∨ (l = ll ∧ j ≠ i)) (h : NodeOk n PL PR G sp perm l j) :
    NodeOk n PL PR G sp' perm' l j := by
  have hstep := cut_step hlev
  have hmono := mono_of_step (hstep ll (Nat.le_refl _))
  have hlen : cut (idxOf sp) n ll (i + 1) ≤ perm.length := by
    rw [hn]; conv => rhs; rw [← cut_last (idxOf sp) n ll]
    exact hmono _ _ (by omega) (Nat.le_refl _)
  have hget : ∀ k, k ≠ 2 ^ ll + i → sp'[k]? = sp[k]? := by
    intro k hk; subst hsp
    rw [getElem?_set' _ _ _ _ hl, if_neg (fun h => hk h.symm)]
  have hidx : ∀ k, k < 2 ^ ll → idxOf sp' k = idxOf sp k := by
    intro k hk; unfold idxOf; rw [hget k (by omega)]
  have hle : l ≤ ll := by omega
  have hpow : 2 ^ l ≤ 2 ^ ll := Nat.pow_le_pow_right (by omega) hle
  have hc : ∀ k, k ≤ 2 ^ l → cut (idxOf sp') n l k = cut (idxOf sp) n l k := fun k hk => cut_congr l k hk fun m hm => hidx m (by omega)
  obtain ⟨r, r1, r2, r3, r4, r5, r6, r7⟩ := h
  have hne : 2 ^ l + j ≠ 2 ^ ll + i := by
    rcases hlj with h | h
    · have : 2 ^ (l + 1) ≤ 2 ^ ll := Nat.pow_le_pow_right (by omega) h
      rw [Nat.pow_succ] at this; omega
    · obtain ⟨h1, h2⟩ := h; subst h1; omega
  unfold NodeOk
  rw [hc j (by omega), hc (j + 1) (by omega), hget _ hne]
  refine ⟨r, r1, r2, r3, r4, r5, ?_, ?_⟩
  · refine keep_between hp hlen ?_ r6
    rcases hlj with h | h
    · -- coarse range `[cut (l+1) (2j), cut (l+1) (2j+1))`
      obtain ⟨k, rfl⟩ : ∃ k, ll = l + 1 + k := ⟨ll - (l + 1), by omega⟩
      have ea : cut (idxOf sp) n l j = cut (idxOf sp) n (l + 1 + k) (2 ^ k * (2 * j)) := by rw [cut_fine, cut_double]
      have ec : r.index = cut (idxOf sp) n (l + 1 + k) (2 ^ k * (2 * j + 1)) := by rw [cut_fine, cut_odd, idxOf_some r1]
      have hb1 : 2 ^ k * (2 * j + 1) ≤ 2 ^ (l + 1 + k) := by
        rw [Nat.pow_add 2 (l + 1) k, Nat.mul_comm (2 ^ (l + 1))]
        exact Nat.mul_le_mul_left _ (by rw [Nat.pow_succ]; omega)
      have hb0 : 2 ^ k * (2 * j) ≤ 2 ^ k * (2 * j + 1) := Nat.mul_le_mul_left _ (by omega)
      rw [ea, ec]
      by_cases c1 : i + 1 ≤ 2 ^ k * (2 * j)
      · right; left; exact hmono _ _ c1 (by omega)
      · by_cases c2 : 2 ^ k * (2 * j + 1) ≤ i
        · right; right; exact hmono _ _ c2 (by omega)
        · left; exact ⟨hmono _ _ (by omega) (by omega), hmono _ _ (by omega) (by omega)⟩
    · obtain ⟨h1, h2⟩ := h
      subst h1
      rcases Nat.lt_or_gt_of_ne h2 with h3 | h3
      · right; right; exact Nat.le_trans r3 (hmono _ _ (by omega) (by omega))
      · right; left; exact hmono _ _ (by omega) (by omega)
  · refine keep_between hp hlen ?_ r7
    rcases hlj with h | h
    · obtain ⟨k, rfl⟩ : ∃ k, ll = l + 1 + k := ⟨ll - (l + 1), by omega⟩
      have ea : r.index = cut (idxOf sp) n (l + 1 + k) (2 ^ k * (2 * j + 1)) := by rw [cut_fine, cut_odd, idxOf_some r1]
      have ec : cut (idxOf sp) n l (j + 1) = cut (idxOf sp) n (l + 1 + k) (2 ^ k * (2 * (j + 1))) := by rw [cut_fine, cut_double]
      have hb1 : 2 ^ k * (2 * (j + 1)) ≤ 2 ^ (l + 1 + k) := by
        rw [Nat.pow_add 2 (l + 1) k, Nat.mul_comm (2 ^ (l + 1))]
        exact Nat.mul_le_mul_left _ (by rw [Nat.pow_succ]; omega)
      have hb0 : 2 ^ k * (2 * j + 1) ≤ 2 ^ k * (2 * (j + 1)) := Nat.mul_le_mul_left _ (by omega)
      rw [ea, ec]
      by_cases c1 : i + 1 ≤ 2 ^ k * (2 * j + 1)
      · right; left; exact hmono _ _ c1 (by omega)
      · by_cases c2 : 2 ^ k * (2 * (j + 1)) ≤ i
        · right; right; exact hmono _ _ c2 (by omega)
        · left; exact ⟨hmono _ _ (by omega) (by omega), hmono _ _ (by omega) (by omega)⟩
    · obtain ⟨h1, h2⟩ := h
      subst h1
      rcases Nat.lt_or_gt_of_ne h2 with h3 | h3
      · right; right; exact hmono _ _ (by omega) (by omega)
      · right; left; exact Nat.le_trans (hmono _ _ (by omega) (by omega)) r2


variable {F : Nat → Nat → Nat → Splitter K → List Nat → Prop} {node : (ll b e : Nat) → List Nat → Option (List Nat × Splitter K)}

/-- The last level that is done keeps the order of the points. -/
def FinOk (n : Nat) (F : Nat → Nat → Nat → Splitter K → List Nat → Prop) (sp : List (Splitter K)) (perm : List Nat) (l i : Nat) : Prop :=
  ∃ q, sp[2 ^ l + i]? = some q ∧ F l (cut (idxOf sp) n l i) (cut (idxOf sp) n l (i + 1)) q perm

theorem finOk_step (hspec : NodeSpec n node PL PR G F) {sp sp' : List (Splitter K)} {perm perm' : List Nat} {ll i j : Nat} {q : Splitter K}
    (hlev : ∀ l i, l < ll → i < 2 ^ l → NodeOk n PL PR G sp perm l i)
    (hi : i < 2 ^ ll) (hsp : sp' = sp.set (2 ^ ll + i) q) (hl : 2 ^ ll + i < sp.length)
    (hp : PermIn (cut (idxOf sp) n ll i) (cut (idxOf sp) n ll (i + 1)) perm perm') (hj : j < 2 ^ ll) (hji : j ≠ i) (h : FinOk n F sp perm ll j) : FinOk n F sp' perm' ll j := by
  have hmono := mono_of_step (cut_step hlev ll (Nat.le_refl _))
  have hget : ∀ k, k ≠ 2 ^ ll + i → sp'[k]? = sp[k]? := by
    intro k hk; subst hsp
    rw [getElem?_set' _ _ _ _ hl, if_neg (fun h => hk h.symm)]
  have hc : ∀ k, k ≤ 2 ^ ll → cut (idxOf sp') n ll k = cut (idxOf sp) n ll k := fun k hk => cut_congr ll k hk fun m hm => by
    unfold idxOf; rw [hget m (by omega)]
  obtain ⟨r, r1, r2⟩ := h
  unfold FinOk
  rw [hc j (by omega), hc (j + 1) (by omega), hget _ (by omega)]
  refine ⟨r, r1, hspec.stable _ _ _ _ _ _ r2 ?_⟩
  intro p h1 h2
  apply hp.2
  rcases Nat.lt_or_gt_of_ne hji with h3 | h3
  · left; exact Nat.lt_of_lt_of_le h2 (hmono _ _ (by omega) (by omega))
  · right; exact Nat.le_trans (hmono _ _ (by omega) (by omega)) h1

/-- The state after some nodes of level `ll`. -/
structure LevelInv (n levels : Nat) (PL PR : Nat → Splitter K → Nat → Prop) (G : Nat → Splitter K → Prop) (F : Nat → Nat → Nat → Splitter K → List Nat → Prop) (ll : Nat) (done : List Nat)
    (perm : List Nat) (sp : List (Splitter K)) (leaf : List (Nat × Nat)) : Prop where
  isPerm : perm.Perm (List.range n)
  len : sp.length = 2 ^ levels
  above : ∀ l i, l < ll → i < 2 ^ l → NodeOk n PL PR G sp perm l i
  now : ∀ i, i < 2 ^ ll → i ∈ done → NodeOk n PL PR G sp perm ll i
  fin : ∀ i, i < 2 ^ ll → i ∈ done → FinOk n F sp perm ll i
  leafLen : ll + 1 = levels → leaf.length = 2 ^ ll
  leafGet : ll + 1 = levels → ∀ i, i < 2 ^ ll → i ∈ done → leaf[i]? = some (cut (idxOf sp) n ll i, cut (idxOf sp) n ll (i + 1))
  noleaf : ll + 1 < levels → leaf = []

theorem level_spec (hspec : NodeSpec n node PL PR G F) {levels ll : Nat} (hll : ll < levels) : ∀ (xs done : List Nat) (perm : List Nat) (sp : List (Splitter K)) (leaf : List (Nat × Nat)),
    (∀ i ∈ xs, i < 2 ^ ll) → xs.Nodup → (∀ i ∈ xs, i ∉ done) → LevelInv n levels PL PR G F ll done perm sp leaf →
    ∃ r, xs.foldlM (m := Option) (fun (x : List Nat × List (Splitter K) × List (Nat × Nat)) i => do
      let (perm, sp, leaf) := x
      let index := 2 ^ ll + i
      let b ← beginOf sp (index + 1) index
      let e ← endOf sp n (index + 1) index
      let leaf ← bif ll + 1 == levels then wr leaf i (b, e) else some leaf
      let (perm, s) ← node ll b e perm
      let sp ← wr sp index s
      some (perm, sp, leaf)) (perm, sp, leaf) = some r ∧ LevelInv n levels PL PR G F ll (xs ++ done) r.1 r.2.1 r.2.2 := by
  intro xs
  induction xs with
  | nil => intro done perm sp leaf _ _ _ h; exact ⟨_, rfl, h⟩
  | cons i xs ih =>
      intro done perm sp leaf hlt hnd hdis hI
      have hi : i < 2 ^ ll := hlt i List.mem_cons_self
      have hpw : 2 ^ (ll + 1) ≤ sp.length := by rw [hI.len]; exact Nat.pow_le_pow_right (by omega) hll
      have h2 : 2 ^ (ll + 1) = 2 * 2 ^ ll := by rw [Nat.pow_succ]; omega
      have hn : perm.length = n := by rw [hI.isPerm.length_eq, List.length_range]
      have hval : Valid n perm := fun x hx => List.mem_range.1 (hI.isPerm.mem_iff.1 hx)
      have hmono := mono_of_step (cut_step hI.above ll (Nat.le_refl _))
      have hce : cut (idxOf sp) n ll (i + 1) ≤ n := by
        conv => rhs; rw [← cut_last (idxOf sp) n ll]
        exact hmono _ _ (by omega) (Nat.le_refl _)
      rw [List.foldlM_cons]
      dsimp only
      simp only [Option.bind_eq_bind]
      rw [beginOf_cut sp n ll i _ hi (by omega) (by omega), endOf_cut sp n ll i _ hi (by omega) (by omega), Option.bind_some, Option.bind_some]
      obtain ⟨leaf', hleaf, hlen', hget'⟩ : ∃ leaf', (bif ll + 1 == levels then wr leaf i (cut (idxOf sp) n ll i, cut (idxOf sp) n ll (i + 1)) else some leaf) = some leaf' ∧
          leaf'.length = leaf.length ∧ (ll + 1 = levels → ∀ j, leaf'[j]? = if i = j then some (cut (idxOf sp) n ll i, cut (idxOf sp) n ll (i + 1)) else leaf[j]?) := by
        by_cases hl : ll + 1 = levels
        · have hil : i < leaf.length := by rw [hI.leafLen hl]; exact hi
          rw [show (ll + 1 == levels) = true from beq_iff_eq.2 hl, cond_true, wr_eq_some hil]
          refine ⟨_, rfl, List.length_set, fun _ j => ?_⟩
          rw [getElem?_set' _ _ _ _ hil]
        · rw [show (ll + 1 == levels) = false from beq_eq_false_iff_ne.2 hl, cond_false]
          exact ⟨leaf, rfl, rfl, fun h => absurd h hl⟩
      rw [hleaf, Option.bind_some]
      obtain ⟨perm', q, e1, e2, e3, e4, e5, e6, e7, e8, e9⟩ := hspec.run ll (cut (idxOf sp) n ll i) (cut (idxOf sp) n ll (i + 1)) perm hval (hmono _ _ (by omega) (by omega)) (by omega)
      have hsl : 2 ^ ll + i < sp.length := by omega
      rw [e1, Option.bind_some]
      dsimp only
      rw [wr_eq_some hsl, Option.bind_some, Option.bind_some]
      have hnd' := List.nodup_cons.1 hnd
      have hcut : ∀ k, k ≤ 2 ^ ll → cut (idxOf (sp.set (2 ^ ll + i) q)) n ll k = cut (idxOf sp) n ll k := fun k hk => cut_congr ll k hk fun m hm => by
        unfold idxOf; rw [getElem?_set' _ _ _ _ hsl, if_neg (by omega)]
      have hqi : (sp.set (2 ^ ll + i) q)[2 ^ ll + i]? = some q := by rw [getElem?_set' _ _ _ _ hsl, if_pos rfl]
      obtain ⟨r, r1, r2⟩ := ih (i :: done) perm' (sp.set (2 ^ ll + i) q) leaf' (fun j hj => hlt j (List.mem_cons_of_mem _ hj)) hnd'.2 (by
          intro j hj hm
          rcases List.mem_cons.1 hm with h | h
          · subst h; exact hnd'.1 hj
          · exact hdis j (List.mem_cons_of_mem _ hj) h) {
        isPerm := e2.1.trans hI.isPerm
        len := by rw [List.length_set]; exact hI.len
        above := fun l j hl hj => nodeOk_step hI.above hn hi rfl hsl e2 hj (Or.inl hl) (hI.above l j hl hj)
        now := by
          intro j hj hm
          by_cases hji : j = i
          · subst hji
            refine ⟨q, hqi, ?_⟩
            rw [hcut j (by omega), hcut (j + 1) (by omega)]
            exact ⟨e3, e4, e5, e6, e7, e8⟩
          · exact nodeOk_step hI.above hn hi rfl hsl e2 hj (Or.inr ⟨rfl, hji⟩) (hI.now j hj ((List.mem_cons.1 hm).resolve_left hji))
        fin := by
          intro j hj hm
          by_cases hji : j = i
          · subst hji
            refine ⟨q, hqi, ?_⟩
            rw [hcut j (by omega), hcut (j + 1) (by omega)]
            exact e9
          · exact finOk_step hspec hI.above hi rfl hsl e2 hj hji (hI.fin j hj ((List.mem_cons.1 hm).resolve_left hji))
        leafLen := fun h => by rw [hlen']; exact hI.leafLen h
        leafGet := by
          intro hl j hj hm
          rw [hget' hl, hcut j (by omega), hcut (j + 1) (by omega)]
          by_cases hji : i = j
          · subst hji; rw [if_pos rfl]
          · rw [if_neg hji]; exact hI.leafGet hl j hj ((List.mem_cons.1 hm).resolve_left (fun h => hji h.symm))
        noleaf := by
          intro h
          have := hI.noleaf h
          subst this
          exact List.length_eq_zero_iff.1 hlen' }
      refine ⟨r, r1, ?_⟩
      have hmem : ∀ j, j ∈ i :: xs ++ done → j ∈ xs ++ i :: done := by
        intro j hj
        simp only [List.cons_append, List.mem_cons, List.mem_append] at hj ⊢
        rcases hj with h | h | h
        · exact Or.inr (Or.inl h)
        · exact Or.inl h
        · exact Or.inr (Or.inr h)
      exact { r2 with
        now := fun j hj hm => r2.now j hj (hmem j hm)
        fin := fun j hj hm => r2.fin j hj (hmem j hm)
        leafGet := fun hl j hj hm => r2.leafGet hl j hj (hmem j hm) }

/-- What the loop over the levels achieves. -/
structure Built (n levels : Nat) (PL PR : Nat → Splitter K → Nat → Prop) (G : Nat → Splitter K → Prop) (F : Nat → Nat → Nat → Splitter K → List Nat → Prop) (ll : Nat)
    (perm : List Nat) (sp : List (Splitter K)) (leaf : List (Nat × Nat)) : Prop where
  isPerm : perm.Perm (List.range n)
  len : sp.length = 2 ^ levels
  above : ∀ l i, l < ll → i < 2 ^ l → NodeOk n PL PR G sp perm l i
  fin : ∀ l, l + 1 = ll → ∀ i, i < 2 ^ l → FinOk n F sp perm l i
  leafGet : ∀ l, l + 1 = levels → ll = levels → leaf.length = 2 ^ l ∧ ∀ i, i < 2 ^ l → leaf[i]? = some (cut (idxOf sp) n l i, cut (idxOf sp) n l (i + 1))
  noleaf : ll < levels ∨ levels = 0 → leaf = []

theorem buildLevels_spec (hspec : NodeSpec n node PL PR G F) (levels : Nat) (orders : Nat → List Nat) (hord : ∀ ll, (orders ll).Perm (List.range (2 ^ ll))) (perm : List Nat)
    (hperm : perm.Perm (List.range n)) (sp : List (Splitter K)) (hsp : sp.length = 2 ^ levels) :
    ∃ r, buildLevels levels n orders node perm sp = some r ∧ Built n levels PL PR G F levels r.1 r.2.1 r.2.2 := by
  unfold buildLevels
  refine forLoop_inv (Nat.zero_le levels) _ _ (fun ll (r : List Nat × List (Splitter K) × List (Nat × Nat)) => Built n levels PL PR G F ll r.1 r.2.1 r.2.2) ?_ ?_
  · exact { isPerm := hperm, len := hsp, above := fun l i h => by omega, fin := fun l h => by omega, leafGet := fun l h1 h2 => by omega, noleaf := fun _ => rfl }
  · intro ll _ hll r hr
    obtain ⟨perm, sp, leaf⟩ := r
    dsimp only at hr ⊢
    have hmem : ∀ i, i ∈ orders ll ↔ i < 2 ^ ll := fun i => by rw [(hord ll).mem_iff, List.mem_range]
    obtain ⟨s, s1, s2⟩ := level_spec hspec hll (orders ll) [] perm sp (bif ll + 1 == levels then List.replicate (2 ^ ll) (0, 0) else leaf) (fun i hi => (hmem i).1 hi)
      ((hord ll).nodup_iff.2 List.nodup_range) (fun _ _ h => by cases h) {
        isPerm := hr.isPerm, len := hr.len, above := hr.above, now := fun _ _ h => by cases h
        fin := fun _ _ h => by cases h
        leafLen := fun h => by rw [show (ll + 1 == levels) = true from beq_iff_eq.2 h, cond_true, List.length_replicate]
        leafGet := fun _ _ _ h => by cases h
        noleaf := fun h => by rw [show (ll + 1 == levels) = false from beq_eq_false_iff_ne.2 (by omega), cond_false]; exact hr.noleaf (Or.inl hll) }
    refine ⟨s, s1, ?_⟩
    rw [List.append_nil] at s2
    exact { isPerm := s2.isPerm, len := s2.len
            above := fun l i hl hi => by
              by_cases h : l = ll
              · subst h; exact s2.now i hi ((hmem i).2 hi)
              · exact s2.above l i (by omega) hi
            fin := fun l hl i hi => by
              have : l = ll := by omega
              subst this; exact s2.fin i hi ((hmem i).2 hi)
            leafGet := fun l h1 h2 => by
              have : l = ll := by omega
              subst this
              exact ⟨s2.leafLen h1, fun i hi => s2.leafGet h1 i hi ((hmem i).2 hi)⟩
            noleaf := fun h => s2.noleaf (by omega) }

end Verif.KdTree
