import Verif.Model.Balance
import Verif.Proof.Nonblocking
import Verif.Spec.Comm
/-! Lemmas about `balance`. -/
namespace Verif.Comm
open Verif.Mpi Verif.Wildcard

variable {T : Type}

theorem getD_mono {l : List Nat} (hl : l.Pairwise (· ≤ ·)) {a b : Nat} (hab : a ≤ b) (hb : b < l.length) : l.getD a 0 ≤ l.getD b 0 := by
  rcases Nat.lt_or_eq_of_le hab with h | h
  · have hal : a < l.length := by omega
    have := List.pairwise_iff_getElem.1 hl a b hal hb h
    rw [List.getD_eq_getElem?_getD, List.getD_eq_getElem?_getD, List.getElem?_eq_getElem hal, List.getElem?_eq_getElem hb]; exact this
  · rw [h]; exact Nat.le_refl _

theorem fillLoop_spec (dst : List Nat) (n : Nat) (hto : dst.Pairwise (· ≤ ·)) (hlen : dst.length = n + 1) :
    ∀ (suf : List Nat) (t tOffset rest offset pos : Nat) (size disp : List Nat), suf = dst.drop t → t ≤ n → size.length = n → disp.length = n →
      pos = dst.getD t 0 + tOffset → (rest ≠ 0 → pos + rest ≤ dst.getD n 0) → (tOffset ≠ 0 → pos ≤ dst.getD (t + 1) 0) → (∀ r, t ≤ r → size.getD r 0 = 0) →
      ∃ size' disp', fillLoop suf tOffset rest offset t size disp = some (size', disp') ∧ size'.length = n ∧
        (∀ r, r < t → size'.getD r 0 = size.getD r 0 ∧ disp'.getD r 0 = disp.getD r 0) ∧
        (∀ r, t ≤ r → r < n → size'.getD r 0 = min (pos + rest) (dst.getD (r + 1) 0) - max pos (dst.getD r 0) ∧
          (size'.getD r 0 ≠ 0 → disp'.getD r 0 = offset + (max pos (dst.getD r 0) - pos))) := by
  have mono : ∀ a b, a ≤ b → b ≤ n → dst.getD a 0 ≤ dst.getD b 0 := fun a b h1 h2 => getD_mono hto h1 (by omega)
  have gset : ∀ (l : List Nat) (i v r : Nat), i < l.length → (l.set i v).getD r 0 = if r = i then v else l.getD r 0 := by
    intro l i v r hi
    rw [List.getD_eq_getElem?_getD, List.getElem?_set, List.getD_eq_getElem?_getD]
    by_cases h : i = r
    · subst h; simp [hi]
    · rw [if_neg h, if_neg (Ne.symm h)]
  intro suf
  induction suf with
  | nil =>
      intro t tOffset rest offset pos size disp hs ht
      have := congrArg List.length hs
      rw [List.length_drop] at this; simp at this; omega
  | cons a suf ih =>
      intro t tOffset rest offset pos size disp hs ht hsl hdl hpos hend hoff hz
      have ha : dst[t]? = some a := by
        have : (dst.drop t)[0]? = some a := by rw [← hs]; rfl
        simpa using this
      have ha' : dst.getD t 0 = a := by rw [List.getD_eq_getElem?_getD, ha]; rfl
      cases suf with
      | nil =>
          have htn : t = n := by
            have := congrArg List.length hs
            rw [List.length_drop] at this; simp at this; omega
          have h0 : rest = 0 := by
            by_contra h
            have := hend h
            rw [htn] at hpos
            omega
          refine ⟨size, disp, by unfold fillLoop; rw [if_pos h0], hsl, fun r _ => ⟨rfl, rfl⟩, fun r h1 h2 => by omega⟩
      | cons b l =>
          have hb : dst[t + 1]? = some b := by
            have : (dst.drop t)[1]? = some b := by rw [← hs]; rfl
            simpa using this
          have hb' : dst.getD (t + 1) 0 = b := by rw [List.getD_eq_getElem?_getD, hb]; rfl
          have htn : t < n := by have := (List.getElem?_eq_some_iff.1 hb).1; omega
          have hab := mono t (t + 1) (by omega) (by omega)
          rw [ha', hb'] at hab
          by_cases h0 : rest = 0
          · refine ⟨size, disp, by unfold fillLoop; rw [if_pos h0], hsl, fun r _ => ⟨rfl, rfl⟩, fun r h1 h2 => ?_⟩
            have e := hz r h1
            refine ⟨by rw [e]; omega, fun hne => absurd e hne⟩
          · by_cases h1 : rest < b - a - tOffset
            · refine ⟨size.set t rest, disp.set t offset, ?_, by simpa using hsl, ?_, ?_⟩
              · unfold fillLoop
                rw [if_neg h0, if_pos h1, wr_eq_some (by omega), wr_eq_some (by omega)]; rfl
              · intro r hr
                rw [gset _ _ _ _ (by omega), gset _ _ _ _ (by omega), if_neg (by omega), if_neg (by omega)]
                exact ⟨rfl, rfl⟩
              · intro r hr hrn
                rw [gset _ _ _ _ (by omega), gset _ _ _ _ (by omega)]
                by_cases hrt : r = t
                · subst hrt
                  rw [if_pos rfl, if_pos rfl, ha', hb']
                  refine ⟨by omega, fun _ => by omega⟩
                · have := mono (t + 1) r (by omega) (by omega)
                  rw [if_neg hrt, if_neg hrt, hz r hr]
                  refine ⟨by omega, fun h => absurd rfl h⟩
            · -- the whole rest of this part
              by_cases hend' : dst.getD n 0 < pos + rest
              · exact absurd (hend h0) (by omega)
              · have hpb : pos ≤ b ∨ b < pos := by omega
                rcases hpb with hpb | hpb
                · obtain ⟨size', disp', e, l1, l2, l3⟩ := ih (t + 1) 0 (rest - (b - a - tOffset)) (offset + (b - a - tOffset)) b
                    (size.set t (b - a - tOffset)) (disp.set t offset)
                    (by rw [← List.drop_drop, ← hs]; rfl) (by omega) (by simpa using hsl) (by simpa using hdl) (by omega)
                    (by intro _; omega) (fun h => absurd rfl h)
                    (by
                      intro r hr
                      rw [gset _ _ _ _ (by omega), if_neg (by omega)]
                      exact hz r (by omega))
                  refine ⟨size', disp', ?_, l1, ?_, ?_⟩
                  · unfold fillLoop
                    rw [if_neg h0, if_neg h1, wr_eq_some (by omega), wr_eq_some (by omega)]; exact e
                  · intro r hr
                    have := l2 r (by omega)
                    rw [gset _ _ _ _ (by omega), gset _ _ _ _ (by omega), if_neg (by omega), if_neg (by omega)] at this
                    exact this
                  · intro r hr hrn
                    by_cases hrt : r = t
                    · subst hrt
                      have := l2 r (by omega)
                      rw [gset _ _ _ _ (by omega), gset _ _ _ _ (by omega), if_pos rfl, if_pos rfl] at this
                      rw [this.1, this.2, ha', hb']
                      refine ⟨by omega, fun _ => by omega⟩
                    · have hm := mono (t + 1) r (by omega) (by omega)
                      have hm2 := mono r (r + 1) (by omega) (by omega)
                      have := l3 r (by omega) hrn
                      refine ⟨by rw [this.1]; omega, fun hne => ?_⟩
                      rw [this.2 hne]; omega
                · -- the current position is always within the part
                  exfalso
                  by_cases h : tOffset = 0
                  · omega
                  · have := hoff h; omega

theorem lowerBound_spec (x : Nat) : ∀ (l : List Nat), lowerBound l x ≤ l.length ∧ (∀ r, r < lowerBound l x → l.getD r 0 < x) ∧
    (lowerBound l x < l.length → x ≤ l.getD (lowerBound l x) 0) := by
  intro l
  unfold lowerBound
  induction l with
  | nil => simp
  | cons a l ih =>
      by_cases h : a < x
      · rw [List.takeWhile_cons_of_pos (by simpa using h)]
        obtain ⟨i1, i2, i3⟩ := ih
        refine ⟨by simpa using i1, ?_, ?_⟩
        · intro r hr
          cases r with
          | zero => simpa using h
          | succ r => simp only [List.length_cons, Nat.add_lt_add_iff_right] at hr; simpa using i2 r hr
        · intro hl
          simp only [List.length_cons, Nat.add_lt_add_iff_right] at hl
          simpa using i3 hl
      · rw [List.takeWhile_cons_of_neg (by simpa using h)]
        refine ⟨by simp, fun r hr => by simp at hr, fun _ => by simpa using Nat.le_of_not_lt h⟩

theorem fill_spec {n N i : Nat} {src dst : List Nat} (hs : Distribution n N src) (hd : Distribution n N dst) (hi : i < n) :
    ∃ size disp, fill n i src dst = some (size, disp) ∧
      ∀ r, r < n → size.getD r 0 = min (src.getD (i + 1) 0) (dst.getD (r + 1) 0) - max (src.getD i 0) (dst.getD r 0) ∧
        (size.getD r 0 ≠ 0 → disp.getD r 0 = max (src.getD i 0) (dst.getD r 0) - src.getD i 0) := by
  have hsl := hs.length
  have hdl := hd.length
  have e0 : src[i]? = some (src.getD i 0) := by rw [List.getD_eq_getElem?_getD, List.getElem?_eq_getElem (by omega)]; rfl
  have e1 : src[i + 1]? = some (src.getD (i + 1) 0) := by rw [List.getD_eq_getElem?_getD, List.getElem?_eq_getElem (by omega)]; rfl
  have h01 := getD_mono hs.sorted (show i ≤ i + 1 by omega) (by omega)
  have h1n := getD_mono hs.sorted (show i + 1 ≤ n by omega) (by omega)
  have hend := hs.last
  have hend' := hd.last
  have hz := hd.first
  obtain ⟨b1, b2, b3⟩ := lowerBound_spec (src.getD i 0 + 1) dst
  have hl0 : lowerBound dst (src.getD i 0 + 1) ≠ 0 := by
    intro h
    rw [h] at b3
    have := b3 (by omega)
    omega
  generalize hl : lowerBound dst (src.getD i 0 + 1) = l at *
  have ea : dst[l - 1]? = some (dst.getD (l - 1) 0) := by rw [List.getD_eq_getElem?_getD, List.getElem?_eq_getElem (by omega)]; rfl
  have hle := b2 (l - 1) (by omega)
  have rep : ∀ r, (List.replicate n 0).getD r 0 = 0 := by
    intro r
    rw [List.getD_eq_getElem?_getD, List.getElem?_replicate]
    split <;> rfl
  obtain ⟨size, disp, f1, f2, f3, f4⟩ := fillLoop_spec dst n hd.sorted hdl (dst.drop (l - 1)) (l - 1) (src.getD i 0 - dst.getD (l - 1) 0)
    (src.getD (i + 1) 0 - src.getD i 0) 0 (src.getD i 0) (List.replicate n 0) (List.replicate n 0) rfl (by omega) (by simp) (by simp) (by omega)
    (by omega)
    (by
      intro hne
      by_cases hll : l < dst.length
      · have := b3 hll
        rw [show l - 1 + 1 = l by omega]; omega
      · have : l - 1 = n := by omega
        rw [this] at hne
        omega)
    (fun r _ => rep r)
  refine ⟨size, disp, ?_, ?_⟩
  · unfold fill
    simp only [Option.bind_eq_bind, e0, e1, Option.bind_some, hl, if_neg hl0, ea]
    exact f1
  · intro r hr
    by_cases hrl : r < l - 1
    · have := f3 r hrl
      rw [this.1, rep]
      have := b2 (r + 1) (by omega)
      exact ⟨by omega, fun h => absurd rfl h⟩
    · have := f4 r (by omega) hr
      refine ⟨by rw [this.1]; omega, fun h => ?_⟩
      rw [this.2 h]; omega

/-- The elements `a, …, b - 1`. -/
def seg (G : List T) (a b : Nat) : List T := (G.drop a).take (b - a)

theorem seg_length {G : List T} {a b : Nat} (h : b ≤ G.length) : (seg G a b).length = b - a := by
  unfold seg; rw [List.length_take, List.length_drop]; omega

theorem seg_get {G : List T} {a b q : Nat} : (seg G a b)[q]? = if q < b - a then G[a + q]? else none := by
  unfold seg
  rw [List.getElem?_take]
  split
  · rw [List.getElem?_drop]
  · rfl

theorem seg_append {G : List T} {a b c : Nat} (h1 : a ≤ b) (h2 : b ≤ c) : seg G a b ++ seg G b c = seg G a c := by
  unfold seg
  rw [show c - a = (b - a) + (c - b) by omega, List.take_add, List.drop_drop, show a + (b - a) = b by omega]

/-- A message is a part of the buffer. -/
theorem memcpyFrom_seg {G : List T} {a b p q : Nat} (h1 : a ≤ p) (h2 : p ≤ q) (h3 : q ≤ b) (h4 : b ≤ G.length) :
    memcpyFrom (seg G a b) (p - a) (q - p) = some (seg G p q) := by
  unfold memcpyFrom
  rw [seg_length h4, if_pos (by omega)]
  unfold seg
  rw [List.drop_take, List.take_take, List.drop_drop, show a + (p - a) = p by omega, show min (q - p) (b - a - (p - a)) = q - p by omega]

/-- The common part of `[a, b)` and `[c, d)`. -/
def common (G : List T) (a b c d : Nat) : List T := seg G (max a c) (min b d)

theorem place_parts {G : List T} {n N i : Nat} {cur tgt : List Nat} (hc : Distribution n N cur) (ht : Distribution n N tgt) (hi : i < n) (hG : G.length = N)
    {size disp : List Nat} (hs : ∀ r, r < n → size.getD r 0 = min (tgt.getD (i + 1) 0) (cur.getD (r + 1) 0) - max (tgt.getD i 0) (cur.getD r 0) ∧
        (size.getD r 0 ≠ 0 → disp.getD r 0 = max (tgt.getD i 0) (cur.getD r 0) - tgt.getD i 0)) :
    ∀ (m k : Nat) (X : List T), k + m = n → X.length = tgt.getD (i + 1) 0 - tgt.getD i 0 →
      (∀ q, q < X.length → tgt.getD i 0 + q < cur.getD k 0 → X[q]? = G[tgt.getD i 0 + q]?) →
      placeParts size disp (((List.range' k m).filter fun r => size.getD r 0 ≠ 0).map fun r =>
        (r, common G (cur.getD r 0) (cur.getD (r + 1) 0) (tgt.getD i 0) (tgt.getD (i + 1) 0))) X = some (seg G (tgt.getD i 0) (tgt.getD (i + 1) 0)) := by
  have hcl := hc.length
  have htl := ht.length
  have hcN := hc.last
  have htN := ht.last
  have t1 := getD_mono ht.sorted (show i ≤ i + 1 by omega) (by omega)
  have t2 := getD_mono ht.sorted (show i + 1 ≤ n by omega) (by omega)
  intro m
  induction m with
  | zero =>
      intro k X hk hX hq
      show some X = _
      congr 1
      apply List.ext_getElem?
      intro q
      rw [seg_get]
      by_cases h : q < X.length
      · rw [if_pos (by omega), hq q h]
        have : k = n := by omega
        rw [this]; omega
      · rw [if_neg (by omega), List.getElem?_eq_none (by omega)]
  | succ m ih =>
      intro k X hk hX hq
      have c1 := getD_mono hc.sorted (show k ≤ k + 1 by omega) (by omega)
      have c2 := getD_mono hc.sorted (show k + 1 ≤ n by omega) (by omega)
      obtain ⟨s1, s2⟩ := hs k (by omega)
      rw [List.range'_succ]
      by_cases hz : size.getD k 0 = 0
      · rw [List.filter_cons_of_neg (by simpa using hz)]
        refine ih (k + 1) X (by omega) hX ?_
        intro q hql hlt
        exact hq q hql (by omega)
      · rw [List.filter_cons_of_pos (by simpa using hz), List.map_cons]
        have s3 := s2 hz
        have hlen : (common G (cur.getD k 0) (cur.getD (k + 1) 0) (tgt.getD i 0) (tgt.getD (i + 1) 0)).length = size.getD k 0 := by
          unfold common
          rw [seg_length (by omega)]; omega
        obtain ⟨X', x1, x2, x3⟩ := memcpyTo_get (buf := X) (p := disp.getD k 0)
          (src := common G (cur.getD k 0) (cur.getD (k + 1) 0) (tgt.getD i 0) (tgt.getD (i + 1) 0)) (by rw [hlen]; omega)
        unfold placeParts
        rw [if_pos (by omega), x1, Option.bind_some]
        refine ih (k + 1) X' (by omega) (by omega) ?_
        intro q hql hlt
        rw [x3, hlen]
        by_cases hin : disp.getD k 0 ≤ q ∧ q < disp.getD k 0 + size.getD k 0
        · rw [if_pos hin]
          unfold common
          rw [seg_get, if_pos (by omega)]
          congr 1
          omega
        · rw [if_neg hin]
          exact hq q (by omega) (by omega)

theorem mapM_some {A B : Type} {f : A → Option B} {g : A → B} : ∀ {l : List A}, (∀ a ∈ l, f a = some (g a)) → l.mapM f = some (l.map g) := by
  intro l
  induction l with
  | nil => intro _; rfl
  | cons a l ih =>
      intro h
      rw [List.mapM_cons, h a (by simp), ih (fun a ha => h a (by simp [ha]))]
      rfl

theorem buffersOf_map_filter {M : Type} (f : Nat → M) (p : Nat → Bool) (j n : Nat) (hj : j < n) :
    buffersOf (((List.range n).filter p).map fun r => (r, f r)) j = if p j then [f j] else [] := by
  have key : ∀ l : List Nat, l.Nodup → buffersOf ((l.filter p).map fun r => (r, f r)) j = if j ∈ l ∧ p j then [f j] else [] := by
    intro l
    induction l with
    | nil => intro _; simp [buffersOf]
    | cons a l ih =>
        intro hn
        rw [List.nodup_cons] at hn
        have ih := ih hn.2
        by_cases ha : p a = true
        · rw [List.filter_cons_of_pos ha, List.map_cons, buffersOf_cons, ih]
          by_cases haj : a = j
          · subst haj
            rw [if_pos rfl, if_neg (fun h => hn.1 h.1), if_pos ⟨by simp, ha⟩]; rfl
          · rw [if_neg haj, List.nil_append]
            simp [Ne.symm haj]
        · rw [List.filter_cons_of_neg ha, ih]
          by_cases haj : a = j
          · subst haj; simp [ha]
          · simp [Ne.symm haj]
  rw [key _ List.nodup_range]
  simp [hj]

theorem balance_completes [Inhabited T] {t n N : Nat} {cur tgt : List Nat} (hc : Distribution n N cur) (ht : Distribution n N tgt) {G : List T} (hG : G.length = N) :
    Completes (world 0 n fun i => balance t n i (seg G (cur.getD i 0) (cur.getD (i + 1) 0)) cur tgt)
      (finished 0 n fun i => some (seg G (tgt.getD i 0) (tgt.getD (i + 1) 0))) := by
  have cm : ∀ a b : Nat, a ≤ b → b ≤ n → cur.getD a 0 ≤ cur.getD b 0 := fun a b h1 h2 => getD_mono hc.sorted h1 (by have := hc.length; omega)
  have tm : ∀ a b : Nat, a ≤ b → b ≤ n → tgt.getD a 0 ≤ tgt.getD b 0 := fun a b h1 h2 => getD_mono ht.sorted h1 (by have := ht.length; omega)
  have hcN := hc.last
  have htN := ht.last
  -- overlap of the old part of `j` with the new part of `i`
  let ov : Nat → Nat → Nat := fun j i => min (cur.getD (j + 1) 0) (tgt.getD (i + 1) 0) - max (cur.getD j 0) (tgt.getD i 0)
  let msg : Nat → Nat → List T := fun j i => common G (cur.getD j 0) (cur.getD (j + 1) 0) (tgt.getD i 0) (tgt.getD (i + 1) 0)
  have fs : ∀ i, ∃ x : List Nat × List Nat, i < n → fill n i cur tgt = some x ∧ ∀ r, r < n → x.1.getD r 0 = ov i r ∧
        (x.1.getD r 0 ≠ 0 → x.2.getD r 0 = max (cur.getD i 0) (tgt.getD r 0) - cur.getD i 0) := by
    intro i
    by_cases hi : i < n
    · obtain ⟨a, b, h⟩ := fill_spec hc ht hi
      exact ⟨(a, b), fun _ => h⟩
    · exact ⟨([], []), fun h => absurd h hi⟩
  have fr : ∀ i, ∃ x : List Nat × List Nat, i < n → fill n i tgt cur = some x ∧ ∀ r, r < n →
        x.1.getD r 0 = min (tgt.getD (i + 1) 0) (cur.getD (r + 1) 0) - max (tgt.getD i 0) (cur.getD r 0) ∧
        (x.1.getD r 0 ≠ 0 → x.2.getD r 0 = max (tgt.getD i 0) (cur.getD r 0) - tgt.getD i 0) := by
    intro i
    by_cases hi : i < n
    · obtain ⟨a, b, h⟩ := fill_spec ht hc hi
      exact ⟨(a, b), fun _ => h⟩
    · exact ⟨([], []), fun h => absurd h hi⟩
  obtain ⟨s, hs⟩ := Classical.axiomOfChoice fs
  obtain ⟨r, hr⟩ := Classical.axiomOfChoice fr
  have rov : ∀ i j, i < n → j < n → (r i).1.getD j 0 = ov j i := by
    intro i j hi hj
    rw [((hr i hi).2 j hj).1]
    show _ = min _ _ - max _ _
    omega
  let sends : Nat → List (Nat × List T) := fun i => ((List.range n).filter fun k => decide ((s i).1.getD k 0 ≠ 0)).map fun k => (k, msg i k)
  let srcs : Nat → List Nat := fun i => (List.range n).filter fun k => decide ((r i).1.getD k 0 ≠ 0)
  have key := nonblocking_completes (t := t) (n := n) (sends := sends) (srcs := srcs) (res := fun i => (srcs i).map fun k => msg k i)
    (by
      intro i hi x hx
      obtain ⟨k, hk, rfl⟩ := List.mem_map.1 hx
      exact List.mem_range.1 (List.mem_filter.1 hk).1)
    (fun i _ => by simp)
    (fun i _ j hj => List.mem_range.1 (List.mem_filter.1 hj).1)
    (by
      intro i j hi hj
      have : (srcs i).zip ((srcs i).map fun k => msg k i) = (srcs i).map fun k => (k, msg k i) := by
        induction srcs i with
        | nil => rfl
        | cons a l ih => rw [List.map_cons, List.zip_cons_cons, ih, List.map_cons]
      rw [this]
      show buffersOf (List.map _ (List.filter _ _)) j = buffersOf (List.map _ (List.filter _ _)) i
      rw [buffersOf_map_filter (fun k => msg k i) _ j n hj, buffersOf_map_filter (fun k => msg j k) _ i n hi, rov i j hi hj, ((hs j hj).2 i hi).1])
    (fun i ms => placeParts (r i).1 (r i).2 ((srcs i).zip ms) (List.replicate (tgt.getD (i + 1) 0 - tgt.getD i 0) default))
  refine cast ?_ key
  congr 1
  · unfold world
    congr 1; funext i
    by_cases hi : 0 ≤ i ∧ i < n
    · rw [if_pos hi, if_pos hi]
      have hi := hi.2
      have e : (((List.range n).filter fun k => decide ((s i).1.getD k 0 ≠ 0)).mapM fun k =>
          (memcpyFrom (seg G (cur.getD i 0) (cur.getD (i + 1) 0)) ((s i).2.getD k 0) ((s i).1.getD k 0)).map fun m => (k, m)) = some (sends i) := by
        apply mapM_some
        intro k hk
        obtain ⟨k1, k2⟩ := List.mem_filter.1 hk
        rw [List.mem_range] at k1
        have k2 : (s i).1.getD k 0 ≠ 0 := by simpa using k2
        obtain ⟨h1, h2⟩ := (hs i hi).2 k k1
        rw [h2 k2]
        have hov : ov i k ≠ 0 := by rw [← h1]; exact k2
        have a1 := cm i (i + 1) (by omega) (by omega)
        have a2 := cm (i + 1) n (by omega) (by omega)
        have := memcpyFrom_seg (G := G) (a := cur.getD i 0) (b := cur.getD (i + 1) 0) (p := max (cur.getD i 0) (tgt.getD k 0))
          (q := min (cur.getD (i + 1) 0) (tgt.getD (k + 1) 0)) (by omega) (by show _ ≤ _; simp only [ov] at hov; omega) (by omega) (by omega)
        rw [h1]
        show Option.map _ (memcpyFrom _ _ (min _ _ - max _ _)) = _
        rw [this]
        rfl
      unfold balance
      beta_reduce
      rw [(hs i hi).1, (hr i hi).1]
      dsimp only
      rw [e]
    · rw [if_neg hi, if_neg hi]
  · unfold finished
    congr 1; funext i
    by_cases hi : 0 ≤ i ∧ i < n
    · rw [if_pos hi, if_pos hi]
      congr 1
      have := place_parts hc ht hi.2 hG (hr i hi.2).2 n 0 (List.replicate (tgt.getD (i + 1) 0 - tgt.getD i 0) default) (by omega) (by simp)
        (by intro q _ h; have := hc.first; omega)
      rw [← List.range_eq_range'] at this
      refine Eq.trans ?_ this
      show placeParts _ _ ((srcs i).zip ((srcs i).map fun k => msg k i)) _ = _
      congr 1
      show (srcs i).zip _ = (srcs i).map _
      generalize srcs i = l
      induction l with
      | nil => rfl
      | cons a l ih => rw [List.map_cons, List.zip_cons_cons, ih, List.map_cons]
    · rw [if_neg hi, if_neg hi]

end Verif.Comm
