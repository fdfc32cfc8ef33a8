import Verif.Prop.Pattern
import Verif.Proof.PatternDecomposition
/-! C46: the numbering of the degrees of freedom of a domain, the whole chain, cases and defects. -/
namespace Verif.Pattern

open Verif.Csx Verif.Feti

theorem nodesIn_mono (nodes : List (List Nat)) (d : Nat) {a b : Nat} (hab : a ≤ b) : nodesIn nodes a d ≤ nodesIn nodes b d := by
  unfold nodesIn
  exact (List.take_sublist_take_left hab).countP_le

theorem nodesIn_lt {nodes : List (List Nat)} {d a b : Nat} (hab : a < b) (hb : b ≤ nodes.length) (hd : d ∈ nodes.getD a []) : nodesIn nodes a d < nodesIn nodes b d := by
  have h := nodesIn_mono nodes d (show a + 1 ≤ b from hab)
  have ha : a < nodes.length := by omega
  rw [nodesIn_succ ha] at h
  rw [List.getD_eq_getElem?_getD, List.getElem?_eq_getElem ha] at hd
  rw [if_pos (by simpa using hd)] at h
  omega

theorem nodesIn_onto {nodes : List (List Nat)} {d : Nat} : ∀ n, n ≤ nodes.length → ∀ k, k < nodesIn nodes n d → ∃ a, a < n ∧ d ∈ nodes.getD a [] ∧ nodesIn nodes a d = k := by
  intro n
  induction n with
  | zero => intro _ k hk; simp [nodesIn] at hk
  | succ n ih =>
      intro hn k hk
      have hlt : n < nodes.length := by omega
      rw [nodesIn_succ hlt] at hk
      by_cases hd : d ∈ nodes[n]
      · rw [if_pos hd] at hk
        by_cases hkn : k = nodesIn nodes n d
        · refine ⟨n, by omega, ?_, hkn.symm⟩
          rw [List.getD_eq_getElem?_getD, List.getElem?_eq_getElem hlt]; exact hd
        · obtain ⟨a, h1, h2, h3⟩ := ih (by omega) k (by omega)
          exact ⟨a, by omega, h2, h3⟩
      · rw [if_neg hd] at hk
        obtain ⟨a, h1, h2, h3⟩ := ih (by omega) k (by omega)
        exact ⟨a, by omega, h2, h3⟩

/-- What the numbering of the degrees of freedom of the domain `d` must be: the degrees of freedom of the nodes of the domain (and no others) have an index, different degrees
of freedom have different indices, the indices are exactly `0, …, size - 1`. -/
structure Numbering (dofs : Nat) (nodes : List (List Nat)) (d size : Nat) (imap : List (Option Nat)) : Prop where
  defined : ∀ n rd, n < nodes.length → rd < dofs → ((∃ k, rdMap imap (n * dofs + rd) = some k) ↔ d ∈ nodes.getD n [])
  inj : ∀ n rd n' rd' k, n < nodes.length → rd < dofs → n' < nodes.length → rd' < dofs → rdMap imap (n * dofs + rd) = some k → rdMap imap (n' * dofs + rd') = some k → n = n' ∧ rd = rd'
  range : ∀ n rd k, n < nodes.length → rd < dofs → rdMap imap (n * dofs + rd) = some k → k < size
  onto : ∀ k, k < size → ∃ n rd, n < nodes.length ∧ rd < dofs ∧ rdMap imap (n * dofs + rd) = some k

/-- C46: if no node lists a domain twice, every own domain gets a numbering of the degrees of freedom of its nodes. -/
theorem C46_decomposition (dofs dbegin dend : Nat) (nodes : List (List Nat)) (hnd : ∀ l ∈ nodes, l.Nodup) :
    ∃ dmap sizes, fillDecomposition dofs dbegin dend nodes = some (dmap, sizes) ∧ ∀ d, dbegin ≤ d → d < dend →
      ∃ size imap, sizes[d - dbegin]? = some size ∧ buildImap dofs nodes.length dmap d = some imap ∧ Numbering dofs nodes d size imap := by
  obtain ⟨sizes, e1, e2, e3⟩ := fillDecomposition_spec dofs dbegin dend nodes hnd
  refine ⟨_, sizes, e1, ?_⟩
  intro d hd1 hd2
  obtain ⟨imap, i1, i2, i3⟩ := buildImap_spec dofs dbegin dend nodes hnd hd1 hd2
  refine ⟨_, imap, e3 d hd1 hd2, i1, ?_⟩
  have hrd : ∀ n rd, n < nodes.length → rd < dofs → rdMap imap (n * dofs + rd) = localIndex dofs nodes d n rd := by
    intro n rd hn hr
    unfold rdMap
    rw [i3 n rd hn hr]; rfl
  have hmem : ∀ n rd k, localIndex dofs nodes d n rd = some k → d ∈ nodes.getD n [] ∧ k = dofs * nodesIn nodes n d + rd := by
    intro n rd k h
    unfold localIndex at h
    by_cases hd : d ∈ nodes.getD n []
    · rw [if_pos hd] at h; exact ⟨hd, (Option.some.inj h).symm⟩
    · rw [if_neg hd] at h; cases h
  have hstep : ∀ a b, a < b → b ≤ nodes.length → d ∈ nodes.getD a [] → dofs * nodesIn nodes a d + dofs ≤ dofs * nodesIn nodes b d := by
    intro a b hab hb hda
    have := nodesIn_lt hab hb hda
    rw [← Nat.mul_succ]
    exact Nat.mul_le_mul_left _ this
  refine ⟨?_, ?_, ?_, ?_⟩
  · intro n rd hn hr
    rw [hrd n rd hn hr]
    constructor
    · rintro ⟨k, hk⟩; exact (hmem n rd k hk).1
    · intro hd; exact ⟨_, by unfold localIndex; rw [if_pos hd]⟩
  · intro n rd n' rd' k hn hr hn' hr' h1 h2
    rw [hrd _ _ hn hr] at h1
    rw [hrd _ _ hn' hr'] at h2
    obtain ⟨m1, k1⟩ := hmem _ _ _ h1
    obtain ⟨m2, k2⟩ := hmem _ _ _ h2
    rcases Nat.lt_trichotomy n n' with hlt | heq | hgt
    · have := hstep n n' hlt (by omega) m1; omega
    · subst heq; exact ⟨rfl, by omega⟩
    · have := hstep n' n hgt (by omega) m2; omega
  · intro n rd k hn hr h
    rw [hrd _ _ hn hr] at h
    obtain ⟨m1, k1⟩ := hmem _ _ _ h
    have := hstep n nodes.length hn (Nat.le_refl _) m1
    omega
  · intro k hk
    have hdofs : 0 < dofs := by
      rcases Nat.eq_zero_or_pos dofs with h0 | h0
      · rw [h0, Nat.zero_mul] at hk; omega
      · exact h0
    obtain ⟨n, hn, hdn, hkn⟩ := nodesIn_onto nodes.length (Nat.le_refl _) (k / dofs) (by rw [Nat.div_lt_iff_lt_mul hdofs, Nat.mul_comm]; exact hk)
    refine ⟨n, k % dofs, hn, Nat.mod_lt _ hdofs, ?_⟩
    rw [hrd _ _ hn (Nat.mod_lt _ hdofs)]
    unfold localIndex
    rw [if_pos hdn, hkn, Nat.div_add_mod]

/-- C46, the whole chain for the domain `d`: if the elements of the domain use only its nodes and each of its nodes, then the numbering of `fillDecomposition` and `buildPattern` give
the pattern, and the assembly adds exactly the sum of the element matrices. -/
theorem C46_domain_partial {R : Type} [AddCommMonoid R] (dofs dbegin dend : Nat) (nodes : List (List Nat)) (hnd : ∀ l ∈ nodes, l.Nodup) {d : Nat} (hd1 : dbegin ≤ d) (hd2 : d < dend)
    (Is : List (Interval R)) (hin : ∀ I ∈ Is, ∀ e ∈ I.2.1, ∀ n ∈ e, n < nodes.length ∧ d ∈ nodes.getD n [])
    (hall : ∀ n, n < nodes.length → d ∈ nodes.getD n [] → ∃ I ∈ Is, ∃ e ∈ I.2.1, n ∈ e) (full : Bool) (junk : Nat → Nat) {simd : Nat} (hsimd : 0 < simd)
    (hnodes : ∀ I ∈ Is, ∀ e ∈ I.2.1, e.length = I.1)
    (hupper : full = false → ∀ I ∈ Is, (∀ e ∈ I.2.1, e.Nodup) ∧ ∀ s r c, r < dofs * I.1 → c < dofs * I.1 → I.2.2 s r c = I.2.2 s c r) :
    ∃ dmap sizes size imap B, fillDecomposition dofs dbegin dend nodes = some (dmap, sizes) ∧ sizes[d - dbegin]? = some size ∧
      buildImap dofs nodes.length dmap d = some imap ∧ Numbering dofs nodes d size imap ∧
      buildPattern dofs full size imap (Is.map (·.2.1)) junk = some B ∧
      PatternOf (fun k => (rdMap imap k).getD 0) dofs full (Is.map (·.2.1)).flatten B.row B.column ∧
      ∀ out : List R, out.length = B.row.length →
        ∃ w, fillDomain full simd B.perm B.offs (Is.map fun I => (dofs * I.1, I.2.1.length, I.2.2)) out = some w ∧ w.length = out.length ∧
          ∀ p i j, B.row[p]? = some i → B.column[p]? = some j → w[p]? = some (out.getD p 0 + assembled (fun k => (rdMap imap k).getD 0) dofs Is i j) := by
  obtain ⟨dmap, sizes, e1, e2⟩ := C46_decomposition dofs dbegin dend nodes hnd
  obtain ⟨size, imap, e3, e4, e5⟩ := e2 d hd1 hd2
  have hmem : ∀ e ∈ (Is.map (·.2.1)).flatten, ∃ I ∈ Is, e ∈ I.2.1 := by
    intro e he
    obtain ⟨l, hl, he⟩ := List.mem_flatten.1 he
    obtain ⟨I, hI, rfl⟩ := List.mem_map.1 hl
    exact ⟨I, hI, he⟩
  have hmap : MapOk imap dofs size (Is.map (·.2.1)).flatten fun k => (rdMap imap k).getD 0 := by
    intro e he n hn rd hrd
    obtain ⟨I, hI, he⟩ := hmem e he
    obtain ⟨h1, h2⟩ := hin I hI e he n hn
    obtain ⟨k, hk⟩ := (e5.defined n rd h1 hrd).2 h2
    dsimp only
    rw [hk]
    exact ⟨rfl, e5.range n rd k h1 hrd hk⟩
  have hused : ∀ k, k < size → ∃ e ∈ (Is.map (·.2.1)).flatten, k ∈ elementDofs (fun k => (rdMap imap k).getD 0) dofs e := by
    intro k hk
    obtain ⟨n, rd, hn, hrd, hkn⟩ := e5.onto k hk
    obtain ⟨I, hI, e, he, hne⟩ := hall n hn ((e5.defined n rd hn hrd).1 ⟨k, hkn⟩)
    refine ⟨e, List.mem_flatten.2 ⟨I.2.1, List.mem_map.2 ⟨I, hI, rfl⟩, he⟩, mem_elementDofs.2 ⟨n, hne, rd, hrd, ?_⟩⟩
    show (rdMap imap (n * dofs + rd)).getD 0 = k
    rw [hkn]; rfl
  obtain ⟨B, b1, b2, _, _⟩ := C46_pattern_partial hmap full hused junk
  obtain ⟨B', b3, b4⟩ := C46_assemble_partial hmap full hused junk hsimd hnodes (by
    intro hf I hI
    refine ⟨?_, (hupper hf I hI).2⟩
    intro e he
    have hen := (hupper hf I hI).1 e he
    unfold elementDofs
    rw [List.nodup_flatMap]
    have hin' := hin I hI e he
    constructor
    · intro rd hrd
      rw [List.mem_range] at hrd
      rw [List.Nodup, List.pairwise_map]
      refine List.Pairwise.imp_of_mem ?_ hen
      intro a b ha hb hab heq
      obtain ⟨ka, hka⟩ := (e5.defined a rd (hin' a ha).1 hrd).2 (hin' a ha).2
      obtain ⟨kb, hkb⟩ := (e5.defined b rd (hin' b hb).1 hrd).2 (hin' b hb).2
      dsimp only at heq
      rw [hka, hkb] at heq
      simp only [Option.getD_some] at heq
      subst heq
      exact hab (e5.inj a rd b rd ka (hin' a ha).1 hrd (hin' b hb).1 hrd hka hkb).1
    · refine List.Pairwise.imp_of_mem ?_ (List.nodup_range (n := dofs))
      intro rd rd' hrd hrd' hne
      rw [List.mem_range] at hrd hrd'
      intro k h1 h2
      simp only [List.mem_map] at h1 h2
      obtain ⟨a, ha, h1⟩ := h1
      obtain ⟨b, hb, h2⟩ := h2
      obtain ⟨ka, hka⟩ := (e5.defined a rd (hin' a ha).1 hrd).2 (hin' a ha).2
      obtain ⟨kb, hkb⟩ := (e5.defined b rd' (hin' b hb).1 hrd').2 (hin' b hb).2
      rw [hka] at h1
      rw [hkb] at h2
      simp only [Option.getD_some] at h1 h2
      subst h1
      subst h2
      exact hne (e5.inj a rd b rd' kb (hin' a ha).1 hrd (hin' b hb).1 hrd' hka hkb).2)
  rw [b1] at b3
  cases b3
  exact ⟨dmap, sizes, size, imap, B, e1, e3, e4, e5, b1, b2, b4⟩

/-! ### Cases -/

/-- Two domains, three nodes, two degrees of freedom; the node 1 is shared, the domain 5 belongs to another process. -/
def mesh : List (List Nat) := [[3], [3, 4, 5], [4]]

example : fillDecomposition 2 3 5 mesh = some ([[(3, some 0)], [(3, some 1)], [(3, some 2), (4, some 0), (5, none)], [(3, some 3), (4, some 1), (5, none)],
    [(4, some 2)], [(4, some 3)]], [4, 4]) := by decide
example : ∀ l ∈ mesh, l.Nodup := by decide
example : buildImap 2 3 [[(3, some 0)], [(3, some 1)], [(3, some 2), (4, some 0), (5, none)], [(3, some 3), (4, some 1), (5, none)], [(4, some 2)], [(4, some 3)]] 4 =
    some [none, none, some 0, some 1, some 2, some 3] := by decide

/-- Two linear elements `0-1` and `1-2` with one degree of freedom. -/
example : (countRows 1 [some 0, some 1, some 2] [[0, 1], [1, 2]] [0, 0, 0, 0]).bind (sumPtrs 3) = some [0, 2, 6, 8] := by decide
example : fillRows 1 false [some 0, some 1, some 2] [[0, 1], [2, 1]] (List.replicate 8 7, [0, 2, 6, 8]) = some ([0, 1, 1, 2, 1, 7, 2, 7], [2, 5, 7, 8]) := by decide
example : elementPositions 1 false [some 0, some 1, some 2] [0, 2, 6, 8] [0, 1, 1, 2, 2, 7, 2, 7] [0, 2, 4] [2, 1] [] = some [4, 3, 2] := by decide
example : fillDomain (R := Int) false 2 [0, 1, 2, 4, 3, 2] [0] [(2, 2, fun s r c => (s : Int) * 100 + r * 10 + c)] [0, 0, 0, 0, 0] = some [0, 1, 122, 101, 100] := by decide
example : setCsr 1 [0, 0, 1, 1, 2] [0, 1, 1, 2, 2] [9, 9, 9, 9] = some ([1, 3, 5, 6], [1, 2, 2, 3, 3]) := by decide

theorem mapOk3 : MapOk [some 0, some 1, some 2] 1 3 [[0, 1], [2, 1]] id := by
  intro e he n hn rd hrd
  have : rd = 0 := by omega
  subst this
  simp only [List.mem_cons, List.not_mem_nil, or_false] at he
  rcases he with rfl | rfl <;>
  · simp only [List.mem_cons, List.not_mem_nil, or_false] at hn
    rcases hn with rfl | rfl <;> exact ⟨rfl, by decide⟩

/-- The hypotheses of the theorems are met by this mesh. -/
example (junk : Nat → Nat) : ∃ B, buildPattern 1 false 3 [some 0, some 1, some 2] [[[0, 1], [2, 1]]] junk = some B ∧ PatternOf id 1 false [[0, 1], [2, 1]] B.row B.column := by
  obtain ⟨B, h1, h2, _⟩ := C46_pattern_partial (intervals := [[[0, 1], [2, 1]]]) mapOk3 false (by
    intro k hk
    have : k = 0 ∨ k = 1 ∨ k = 2 := by omega
    rcases this with rfl | rfl | rfl
    · exact ⟨[0, 1], by decide, by decide⟩
    · exact ⟨[0, 1], by decide, by decide⟩
    · exact ⟨[2, 1], by decide, by decide⟩) junk
  exact ⟨B, h1, h2⟩

/-! ### Where it fails -/

/-- An element with a repeated node (a degenerate element) and the upper triangle: the sum of the element matrices has `A01 + A10` in the diagonal entry, the assembly adds only
`A01`.  The condition on repeated nodes in `C46_assemble_partial` is necessary. -/
theorem C46_degenerate : ∃ A : Nat → Nat → Nat → Int, (∀ s r c, A s r c = A s c r) ∧
    elementPositions 1 false [some 0] [0, 4] [0, 0, 0, 0] [0] [0, 0] [] = some [0, 0, 0] ∧
    fillDomain false 1 [0, 0, 0] [0] [(2, 1, A)] [0] = some [3] ∧
    assembled id 1 [((2, [[0, 0]], A) : Interval Int)] 0 0 = 4 := by
  refine ⟨fun _ _ _ => 1, fun _ _ _ => rfl, by decide, by decide, by decide⟩

/-- A row that no element uses (a node of the domain without an element of the domain) gets a spurious entry: after `unique`, `end[n] = begin[n] + 1` although nothing was stored, and the entry is
what happens to be at that place, here the first column of the next row.  The condition that every degree of freedom is used is necessary. -/
theorem C46_unused_row : uniqueRows 2 [0, 0, 1] ([1], [0, 1, 1]) = some ([1], [1, 1, 1]) ∧
    listRows 2 [0, 0, 1] [1, 1, 1] [1] = some ⟨[0, 1], [1, 1], [0, 1]⟩ ∧ ¬ PatternOf id 1 true [[1]] [0, 1] [1, 1] := by
  refine ⟨by simp [uniqueRows, uniqueRow, forLoop, Utils.sortRange, Utils.stdSort, wr, show List.range' 0 2 = [0, 1] from rfl], by decide, ?_⟩
  intro h
  obtain ⟨e, he, hr, _⟩ := (h.exact 0 1).1 (by decide)
  rw [List.mem_singleton] at he
  subst he
  exact absurd hr (by decide)

end Verif.Pattern
