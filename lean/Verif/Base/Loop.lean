import Verif.Base.Mem
/-
`for (i = a; i < b; ++i) body` over a state, in `Option` (`none` = undefined behaviour), and its invariant rule.
-/
namespace Verif

/-- `for (size_t i = a; i < b; ++i) s = f i s`. -/
def forLoop {σ : Type _} (a b : Nat) (s : σ) (f : Nat → σ → Option σ) : Option σ :=
  (List.range' a (b - a)).foldlM (fun s i => f i s) s

theorem forLoop_ge {σ : Type _} {a b : Nat} (s : σ) (f : Nat → σ → Option σ) (h : b ≤ a) :
    forLoop a b s f = some s := by
  simp [forLoop, Nat.sub_eq_zero_of_le h]

theorem forLoop_lt {σ : Type _} {a b : Nat} (s : σ) (f : Nat → σ → Option σ) (h : a < b) :
    forLoop a b s f = (f a s).bind fun s => forLoop (a + 1) b s f := by
  unfold forLoop
  have : b - a = (b - (a + 1)) + 1 := by omega
  rw [this, List.range'_succ, List.foldlM_cons]
  rfl

/-- Invariant rule. -/
theorem forLoop_inv {σ : Type _} {a b : Nat} (hab : a ≤ b) (s : σ) (f : Nat → σ → Option σ)
    (I : Nat → σ → Prop) (h0 : I a s)
    (hs : ∀ i, a ≤ i → i < b → ∀ s, I i s → ∃ s', f i s = some s' ∧ I (i + 1) s') :
    ∃ s', forLoop a b s f = some s' ∧ I b s' := by
  induction h : b - a generalizing a s with
  | zero =>
      have : a = b := by omega
      subst this
      exact ⟨s, forLoop_ge s f (Nat.le_refl _), h0⟩
  | succ n ih =>
      have hlt : a < b := by omega
      obtain ⟨s', e, hI⟩ := hs a (Nat.le_refl _) hlt s h0
      obtain ⟨s'', e', hI'⟩ := ih (a := a + 1) (by omega) s' hI
        (fun i h1 h2 => hs i (by omega) h2) (by omega)
      exact ⟨s'', by rw [forLoop_lt s f hlt, e]; exact e', hI'⟩

/-- Splitting a loop. -/
theorem forLoop_split {σ : Type _} {a m b : Nat} (h1 : a ≤ m) (h2 : m ≤ b) (s : σ) (f : Nat → σ → Option σ) :
    forLoop a b s f = (forLoop a m s f).bind fun s => forLoop m b s f := by
  induction h : m - a generalizing a s with
  | zero =>
      have : a = m := by omega
      subst this
      rw [forLoop_ge s f (Nat.le_refl _)]; rfl
  | succ n ih =>
      rw [forLoop_lt s f (by omega : a < b), forLoop_lt s f (by omega : a < m)]
      cases f a s with
      | none => rfl
      | some s' => exact ih (by omega) s' (by omega)

/-- The loop over a pure body. -/
theorem forLoop_congr {σ : Type _} {a b : Nat} (s : σ) (f g : Nat → σ → Option σ)
    (h : ∀ i s, a ≤ i → i < b → f i s = g i s) : forLoop a b s f = forLoop a b s g := by
  induction hn : b - a generalizing a s with
  | zero => rw [forLoop_ge _ _ (by omega), forLoop_ge _ _ (by omega)]
  | succ n ih =>
      rw [forLoop_lt s f (by omega), forLoop_lt s g (by omega), h a s (Nat.le_refl _) (by omega)]
      congr 1; funext s'
      exact ih s' (fun i s h1 h2 => h i s (by omega) h2) (by omega)

end Verif
