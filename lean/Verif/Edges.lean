import Verif.Install
import Mathlib.Data.Set.Card

/-!
# Absorption edges found in a table of photoelectric coefficients (properties C102, C103)
-/

set_option linter.unusedSectionVars false

namespace Fisx
namespace Element

/-! ## Specification -/

section spec

variable {K : Type} [LinearOrder K]

/-- The table has an edge at the energy `x`, index `i`: the energy is repeated and the coefficient jumps upwards. -/
def IsJump (E V : List K) (x : K) (i : Nat) : Prop :=
  E[i]? = some x ∧ E[i + 1]? = some x ∧ ∃ p q, V[i]? = some p ∧ V[i + 1]? = some q ∧ p < q

/-- The number of energies above `x` with an edge. -/
noncomputable def edgesAbove (E V : List K) (x : K) : Nat := Set.ncard {y | x < y ∧ ∃ i, IsJump E V y i}

end spec

variable {K : Type} [Field K] [LinearOrder K] [IsStrictOrderedRing K]

/-! ## Candidates -/

theorem isJump_cons {a b : K} {E : List K} {p q : K} {V : List K} (x : K) (i : Nat) :
    IsJump (a :: b :: E) (p :: q :: V) x i ↔
      (i = 0 ∧ a = x ∧ b = x ∧ p < q) ∨ (∃ k, i = k + 1 ∧ IsJump (b :: E) (q :: V) x k) := by
  cases i with
  | zero =>
    unfold IsJump
    simp only [List.getElem?_cons_zero, List.getElem?_cons_succ, Option.some.injEq]
    constructor
    · rintro ⟨h1, h2, p', q', rfl, rfl, h⟩
      exact Or.inl ⟨trivial, h1, h2, h⟩
    · rintro (⟨_, h1, h2, h⟩ | ⟨k, hk, _⟩)
      · exact ⟨h1, h2, p, q, rfl, rfl, h⟩
      · omega
  | succ k =>
    unfold IsJump
    simp only [List.getElem?_cons_succ]
    constructor
    · intro h
      exact Or.inr ⟨k, rfl, h⟩
    · rintro (⟨hk, _⟩ | ⟨k', hk, h⟩)
      · omega
      · obtain rfl : k = k' := by omega
        exact h

theorem candidates_sorted : ∀ (E V : List K) (i : Nat) (acc : SMap K Nat), acc.Sorted → (candidates E V i acc).Sorted := by
  intro E
  induction E with
  | nil => intro V i acc h; simpa [candidates] using h
  | cons a E ih =>
    intro V i acc h
    cases E with
    | nil => simpa [candidates] using h
    | cons b E =>
      cases V with
      | nil => simpa [candidates] using h
      | cons p V =>
        cases V with
        | nil => simpa [candidates] using h
        | cons q V =>
          unfold candidates
          apply ih
          split_ifs
          · exact SMap.insert_sorted h _ _
          · exact h
          · exact h

theorem candidates_find : ∀ (E V : List K) (i0 : Nat) (acc : SMap K Nat) (x : K) (i : Nat),
    (candidates E V i0 acc).find? x = some i ↔
      (∃ k, i = i0 + k ∧ IsJump E V x k ∧ ∀ k', IsJump E V x k' → k' ≤ k) ∨
        ((∀ k, ¬ IsJump E V x k) ∧ acc.find? x = some i) := by
  intro E
  have short : ∀ (E V : List K), (E.length < 2 ∨ V.length < 2) → ∀ x k, ¬ IsJump E V x k := by
    intro E V hl x k ⟨_, h2, p, q, _, h4, _⟩
    have h2 := (List.getElem?_eq_some_iff.1 h2).1
    have h4 := (List.getElem?_eq_some_iff.1 h4).1
    omega
  have base : ∀ (E V : List K), (E.length < 2 ∨ V.length < 2) → ∀ (i0 : Nat) (acc : SMap K Nat) (x : K) (i : Nat),
      acc.find? x = some i ↔ (∃ k, i = i0 + k ∧ IsJump E V x k ∧ ∀ k', IsJump E V x k' → k' ≤ k) ∨
        ((∀ k, ¬ IsJump E V x k) ∧ acc.find? x = some i) := by
    intro E V hl i0 acc x i
    constructor
    · intro h; exact Or.inr ⟨short E V hl x, h⟩
    · rintro (⟨k, _, h, _⟩ | ⟨_, h⟩)
      · exact absurd h (short E V hl x k)
      · exact h
  induction E with
  | nil => intro V i0 acc x i; simpa [candidates] using base [] V (by simp) i0 acc x i
  | cons a E ih =>
    intro V i0 acc x i
    cases E with
    | nil => simpa [candidates] using base [a] V (by simp) i0 acc x i
    | cons b E =>
      cases V with
      | nil => simpa [candidates] using base (a :: b :: E) [] (by simp) i0 acc x i
      | cons p V =>
        cases V with
        | nil => simpa [candidates] using base (a :: b :: E) [p] (by simp) i0 acc x i
        | cons q V =>
          unfold candidates
          rw [ih]
          constructor
          · rintro (⟨k, hk, hj, hm⟩ | ⟨hn, hf⟩)
            · refine Or.inl ⟨k + 1, by omega, (isJump_cons x _).2 (Or.inr ⟨k, rfl, hj⟩), ?_⟩
              intro k' hk'
              rcases (isJump_cons x _).1 hk' with ⟨rfl, _⟩ | ⟨k2, rfl, h2⟩
              · omega
              · have := hm _ h2; omega
            · by_cases hc : a = x ∧ b = x ∧ p < q
              · obtain ⟨rfl, rfl, hpq⟩ := hc
                rw [if_pos rfl, if_pos hpq, SMap.find?_insert, if_pos rfl] at hf
                refine Or.inl ⟨0, by simpa using hf.symm, (isJump_cons _ _).2 (Or.inl ⟨rfl, rfl, rfl, hpq⟩), ?_⟩
                intro k' hk'
                rcases (isJump_cons _ _).1 hk' with ⟨rfl, _⟩ | ⟨k2, rfl, h2⟩
                · omega
                · exact absurd h2 (hn _)
              · refine Or.inr ⟨?_, ?_⟩
                · intro k hk
                  rcases (isJump_cons x _).1 hk with ⟨rfl, h⟩ | ⟨k2, rfl, h2⟩
                  · exact hc h
                  · exact hn _ h2
                · by_cases hab : a = b
                  · rw [if_pos hab] at hf
                    by_cases hpq : p < q
                    · rw [if_pos hpq, SMap.find?_insert] at hf
                      rw [if_neg (by rintro rfl; exact hc ⟨rfl, hab.symm, hpq⟩)] at hf
                      exact hf
                    · rwa [if_neg hpq] at hf
                  · rwa [if_neg hab] at hf
          · rintro (⟨k, hk, hj, hm⟩ | ⟨hn, hf⟩)
            · rcases (isJump_cons x _).1 hj with ⟨rfl, h1, h2, hpq⟩ | ⟨k2, rfl, h2⟩
              · refine Or.inr ⟨?_, ?_⟩
                · intro k' hk'
                  have := hm _ ((isJump_cons x _).2 (Or.inr ⟨k', rfl, hk'⟩))
                  omega
                · rw [if_pos (h1.trans h2.symm), if_pos hpq, SMap.find?_insert, if_pos h1]
                  simp [hk]
              · refine Or.inl ⟨k2, by omega, h2, ?_⟩
                intro k' hk'
                have := hm _ ((isJump_cons x _).2 (Or.inr ⟨k', rfl, hk'⟩))
                omega
            · refine Or.inr ⟨?_, ?_⟩
              · intro k hk
                exact hn _ ((isJump_cons x _).2 (Or.inr ⟨k, rfl, hk⟩))
              · by_cases hab : a = b
                · rw [if_pos hab]
                  by_cases hpq : p < q
                  · rw [if_pos hpq, SMap.find?_insert]
                    rw [if_neg (by
                      intro hx
                      have hx' : a = x := hx
                      exact hn 0 ((isJump_cons x _).2 (Or.inl ⟨rfl, hx', hab ▸ hx', hpq⟩)))]
                    exact hf
                  · rwa [if_neg hpq]
                · rwa [if_neg hab]

/-! ## Pairing -/

theorem at0_touch (b : SMap Str K) (k s : Str) : at0 (if b.mem k then b else b.insert k 0) s = at0 b s := by
  by_cases h : b.mem k = true
  · rw [if_pos h]
  · rw [if_neg h]
    unfold at0
    rw [SMap.find?_insert]
    split_ifs with hs
    · obtain rfl : s = k := by first | exact hs | exact hs.symm
      unfold SMap.mem at h
      cases hf : b.find? s with
      | none => rfl
      | some v => rw [hf] at h; simp at h
    · rfl

theorem pairShells_at0 : ∀ (cs : List (K × Nat)) (ks : List Str) (b : SMap Str K) (r : SMap Str (K × Nat)) (s : Str),
    at0 (pairShells cs ks b r).1 s = at0 b s := by
  intro cs
  induction cs with
  | nil => intro ks b r s; simp [pairShells]
  | cons c cs ih =>
    intro ks b r s
    cases ks with
    | nil => simp [pairShells]
    | cons k ks =>
      obtain ⟨x, i⟩ := c
      unfold pairShells
      simp only
      rw [ih, at0_touch]

/-- The shell and the edge are compatible. -/
def Matches (v x : K) : Prop := 0 < v ∧ |x - v| < 1 / 10

theorem pairShells_find : ∀ (cs : List (K × Nat)) (ks : List Str) (b : SMap Str K) (r : SMap Str (K × Nat)),
    ks.Nodup → (∀ k ∈ ks, r.find? k = none) → ∀ (s : Str) (y : K × Nat),
    (pairShells cs ks b r).2.find? s = some y ↔
      (∃ n : Nat, ks[n]? = some s ∧ cs[n]? = some y ∧ Matches (at0 b s) y.1) ∨ (s ∉ ks ∧ r.find? s = some y) := by
  intro cs
  induction cs with
  | nil =>
    intro ks b r _ hr s y
    have h0 : (pairShells ([] : List (K × Nat)) ks b r).2 = r := by simp [pairShells]
    rw [h0]
    constructor
    · intro h
      refine Or.inr ⟨fun hs => ?_, h⟩
      rw [hr s hs] at h
      cases h
    · rintro (⟨n, _, h2, _⟩ | ⟨_, h⟩)
      · simp at h2
      · exact h
  | cons c cs ih =>
    intro ks b r hnd hr s y
    cases ks with
    | nil => simp [pairShells]
    | cons k ks =>
      obtain ⟨x, i⟩ := c
      unfold pairShells
      simp only
      obtain ⟨hk, hnd'⟩ := List.nodup_cons.1 hnd
      have hsame : ∀ s, at0 (if b.mem k then b else b.insert k 0) s = at0 b s := at0_touch b k
      rw [ih ks _ _ hnd']
      · simp only [hsame]
        constructor
        · rintro (⟨n, h1, h2, h3⟩ | ⟨hs, hf⟩)
          · exact Or.inl ⟨n + 1, by simpa using h1, by simpa using h2, h3⟩
          · by_cases hks : s = k
            · subst hks
              by_cases hm : Matches (at0 b s) x
              · rw [if_pos hm.1, if_pos hm.2, SMap.find?_insert, if_pos rfl] at hf
                refine Or.inl ⟨0, rfl, ?_, ?_⟩
                · simpa using hf
                · obtain rfl : (x, i) = y := by simpa using hf
                  exact hm
              · exfalso
                have hn := hr s List.mem_cons_self
                by_cases h0 : at0 b s > 0
                · rw [if_pos h0] at hf
                  by_cases h1 : |x - at0 b s| < 1 / 10
                  · exact hm ⟨h0, h1⟩
                  · rw [if_neg h1, hn] at hf; cases hf
                · rw [if_neg h0, hn] at hf; cases hf
            · refine Or.inr ⟨by simp [hks, hs], ?_⟩
              split_ifs at hf with h0 h1
              · rwa [SMap.find?_insert, if_neg (by first | exact hks | exact fun h => hks h.symm)] at hf
              · exact hf
              · exact hf
        · rintro (⟨n, h1, h2, h3⟩ | ⟨hs, hf⟩)
          · cases n with
            | zero =>
              simp only [List.getElem?_cons_zero, Option.some.injEq] at h1 h2
              subst h1 h2
              refine Or.inr ⟨hk, ?_⟩
              rw [if_pos h3.1, if_pos h3.2, SMap.find?_insert, if_pos rfl]
            | succ n => exact Or.inl ⟨n, by simpa using h1, by simpa using h2, h3⟩
          · simp only [List.mem_cons, not_or] at hs
            refine Or.inr ⟨hs.2, ?_⟩
            split_ifs with h0 h1
            · rw [SMap.find?_insert, if_neg (by first | exact hs.1 | exact fun h => hs.1 h.symm)]
              exact hf
            · exact hf
            · exact hf
      · intro k' hk'
        have hne : k' ≠ k := fun h => hk (h ▸ hk')
        have := hr k' (List.mem_cons_of_mem _ hk')
        rw [hsame]
        split_ifs with h0 h1
        · rw [SMap.find?_insert, if_neg (by first | exact hne | exact fun h => hne h.symm)]
          exact this
        · exact this
        · exact this

/-- The place in a strictly decreasing list is the number of larger keys. -/
theorem place_iff {l : List (K × Nat)} (hl : l.Pairwise (fun a b => b.1 < a.1)) (n : Nat) (y : K × Nat) :
    l[n]? = some y ↔ y ∈ l ∧ Set.ncard {x | y.1 < x ∧ ∃ i, (x, i) ∈ l} = n := by
  have hnd : (l.map Prod.fst).Nodup := by
    rw [List.nodup_iff_pairwise_ne, List.pairwise_map]
    exact hl.imp (fun h => (ne_of_gt h))
  have key : ∀ n, l[n]? = some y → Set.ncard {x | y.1 < x ∧ ∃ i, (x, i) ∈ l} = n := by
    intro n hn
    obtain ⟨hlt, hy⟩ := List.getElem?_eq_some_iff.1 hn
    have heq : {x | y.1 < x ∧ ∃ i, (x, i) ∈ l} = (((l.map Prod.fst).take n).toFinset : Set K) := by
      ext x
      simp only [Set.mem_ofPred_eq, List.coe_toFinset, ← List.map_take, List.mem_map]
      constructor
      · rintro ⟨hx, i, hi⟩
        obtain ⟨m, hm, hmi⟩ := List.mem_iff_getElem.1 hi
        have hmn : m < n := by
          by_contra hc
          rcases Nat.lt_or_eq_of_le (Nat.le_of_not_lt hc) with h | h
          · have := List.pairwise_iff_getElem.1 hl n m hlt hm h
            rw [hy, hmi] at this
            exact absurd hx (not_lt.2 (le_of_lt this))
          · subst h
            rw [hy] at hmi
            rw [hmi] at hx
            exact absurd hx (lt_irrefl _)
        refine ⟨(x, i), ?_, rfl⟩
        rw [List.mem_take_iff_getElem]
        exact ⟨m, by omega, hmi⟩
      · rintro ⟨z, hz, rfl⟩
        rw [List.mem_take_iff_getElem] at hz
        obtain ⟨m, hm, hz⟩ := hz
        have hm' : m < n := by omega
        refine ⟨?_, z.2, ?_⟩
        · have := List.pairwise_iff_getElem.1 hl m n (by omega) hlt hm'
          rw [hy, hz] at this
          exact this
        · rw [← hz]; exact List.getElem_mem _
    rw [heq, Set.ncard_coe_finset, List.toFinset_card_of_nodup (hnd.sublist (List.take_sublist _ _)), List.length_take,
      List.length_map]
    omega
  constructor
  · intro hn
    exact ⟨List.mem_of_getElem? hn, key n hn⟩
  · rintro ⟨hy, hn⟩
    obtain ⟨m, hm⟩ := List.mem_iff_getElem?.1 hy
    rw [key m hm] at hn
    rw [← hn]; exact hm

/-! ## Theorems -/

theorem keys_nodup : keys.Nodup := by decide +kernel

/-- **C102** The shells found in a table: a shell is reported with the energy `x` and the index `i` exactly when the table
has an edge at `x`, `i` is the last index of this energy where the coefficient jumps, the shell is at the place in the list
K, L1, L2, L3, M1, ..., M5 given by the number of edges above `x`, and the shell is bound by an energy within 0.1 keV of `x`. -/
theorem C102_edges (e : Element K) (E V : List K) (edges : SMap Str (K × Nat)) (h : (e.extractEdges E V).1 = .ok edges)
    (s : Str) (x : K) (i : Nat) :
    edges.find? s = some (x, i) ↔
      ["K", "L1", "L2", "L3", "M1", "M2", "M3", "M4", "M5"][edgesAbove E V x]? = some (String.ofList s) ∧
      IsJump E V x i ∧ (∀ k, IsJump E V x k → k ≤ i) ∧
      0 < at0 e.binding s ∧ |x - at0 e.binding s| < 1 / 10 := by
  have hs : (candidates E V 0 []).Sorted := candidates_sorted E V 0 [] SMap.sorted_nil
  have hmem : ∀ x i, (x, i) ∈ (candidates E V 0 []) ↔ IsJump E V x i ∧ ∀ k, IsJump E V x k → k ≤ i := by
    intro x i
    rw [← SMap.find?_iff_mem hs, candidates_find]
    simp only [SMap.find?_nil, reduceCtorEq, and_false, or_false]
    constructor
    · rintro ⟨k, hk, h⟩
      obtain rfl : i = k := by omega
      exact h
    · intro h
      exact ⟨i, by omega, h⟩
  have hlast : ∀ x i, IsJump E V x i → ∃ k, (x, k) ∈ (candidates E V 0 []) := by
    intro x i hi
    have : (candidates E V 0 []).find? x ≠ none := by
      intro hn
      have hfin : ∀ k, IsJump E V x k → k < E.length := fun k hk => (List.getElem?_eq_some_iff.1 hk.1).1
      classical
      let S := (Finset.range E.length).filter (fun k => IsJump E V x k)
      have hS : S.Nonempty := ⟨i, by simp [S, hi, hfin i hi]⟩
      have hmx := S.max'_mem hS
      have h1 : IsJump E V x (S.max' hS) := (Finset.mem_filter.1 hmx).2
      have h2 : ∀ k, IsJump E V x k → k ≤ S.max' hS := fun k hk =>
        S.le_max' k (by simp [S, hk, hfin k hk])
      have := (SMap.find?_iff_mem hs).2 ((hmem x _).2 ⟨h1, h2⟩)
      rw [hn] at this
      cases this
    cases hf : (candidates E V 0 []).find? x with
    | none => exact absurd hf this
    | some k => exact ⟨k, SMap.mem_of_find? hf⟩
  have habove : ∀ x, {y | x < y ∧ ∃ i, (y, i) ∈ (candidates E V 0 []).reverse} = {y | x < y ∧ ∃ i, IsJump E V y i} := by
    intro x
    ext y
    simp only [Set.mem_ofPred_eq, List.mem_reverse]
    constructor
    · rintro ⟨h1, i, hi⟩
      exact ⟨h1, i, ((hmem y i).1 hi).1⟩
    · rintro ⟨h1, i, hi⟩
      exact ⟨h1, hlast y i hi⟩
  have hdec : (candidates E V 0 []).reverse.Pairwise (fun a b => b.1 < a.1) := by
    rw [List.pairwise_reverse]; exact hs
  have hedges : edges = (pairShells (candidates E V 0 []).reverse keys e.binding []).2 := by
    unfold extractEdges at h
    split_ifs at h
    simpa using h.symm
  have hname : ∀ n : Nat, ["K", "L1", "L2", "L3", "M1", "M2", "M3", "M4", "M5"][n]? = some (String.ofList s) ↔
      keys[n]? = some s := by
    intro n
    have hk : keys = (["K", "L1", "L2", "L3", "M1", "M2", "M3", "M4", "M5"] : List String).map String.toList := rfl
    rw [hk, List.getElem?_map]
    cases (["K", "L1", "L2", "L3", "M1", "M2", "M3", "M4", "M5"] : List String)[n]? with
    | none => simp
    | some w =>
      simp only [Option.some.injEq, Option.map_some]
      constructor
      · rintro rfl; exact String.toList_ofList
      · rintro rfl; exact String.ofList_toList.symm
  rw [hname, hedges, pairShells_find _ _ _ _ keys_nodup (by simp)]
  simp only [SMap.find?_nil, reduceCtorEq, and_false, or_false]
  constructor
  · rintro ⟨n, h1, h2, h3⟩
    obtain ⟨h4, h5⟩ := (place_iff hdec n (x, i)).1 h2
    rw [habove] at h5
    rw [List.mem_reverse, hmem] at h4
    refine ⟨?_, h4.1, h4.2, h3.1, h3.2⟩
    unfold edgesAbove
    rw [h5]
    exact h1
  · rintro ⟨h1, h2, h3, h4, h5⟩
    refine ⟨edgesAbove E V x, h1, (place_iff hdec _ (x, i)).2 ⟨?_, ?_⟩, h4, h5⟩
    · rw [List.mem_reverse, hmem]
      exact ⟨h2, h3⟩
    · rw [habove]
      rfl

/-- **C102** (errors) The call throws a runtime_error when there are no coefficients, no energies, numbers of both that
differ, or no binding energies; otherwise it returns. In both cases the element keeps its data; a shell without binding
energy may get a zero one. -/
theorem C102_errors (e : Element K) (E V : List K) :
    ((e.extractEdges E V).1 = .throw .runtimeError ↔ E = [] ∨ V = [] ∨ E.length ≠ V.length ∨ e.binding = []) ∧
    (¬ (E = [] ∨ V = [] ∨ E.length ≠ V.length ∨ e.binding = []) → ∃ edges, (e.extractEdges E V).1 = .ok edges) ∧
    (∀ s, at0 (e.extractEdges E V).2.binding s = at0 e.binding s) ∧
    { (e.extractEdges E V).2 with binding := e.binding } = e := by
  unfold extractEdges
  simp only [Nat.lt_one_iff, List.length_eq_zero_iff]
  split_ifs with h1 h2 h3 h4
  · simp [h1]
  · simp [h2]
  · simp [h3]
  · refine ⟨by simp [h4], by simp [h4], fun _ => rfl, rfl⟩
  · refine ⟨?_, ?_, ?_, rfl⟩
    · simp only [ne_eq, false_iff, not_or, not_not]
      exact ⟨h2, h1, not_not.1 h3, h4⟩
    · intro _
      exact ⟨_, rfl⟩
    · intro s
      exact pairShells_at0 _ _ _ _ s

/-- **C103** violated: when all the edges of a table are at one energy and this energy is not the one of the K shell, no
edge is reported, whatever the binding energies of the other shells are. -/
theorem C103_violated (e : Element K) (E V : List K) (edges : SMap Str (K × Nat))
    (h : (e.extractEdges E V).1 = .ok edges) (x : K) (hone : ∀ y i, IsJump E V y i → y = x)
    (hK : 1 / 10 ≤ |x - at0 e.binding "K".toList|) (s : Str) : edges.find? s = none := by
  cases hf : edges.find? s with
  | none => rfl
  | some y =>
    obtain ⟨y, i⟩ := y
    obtain ⟨h1, h2, _, _, h5⟩ := (C102_edges e E V edges h s y i).1 hf
    obtain rfl := hone y i h2
    have h0 : edgesAbove E V y = 0 := by
      unfold edgesAbove
      have : {z | y < z ∧ ∃ i, IsJump E V z i} = ∅ := by
        ext z
        simp only [Set.mem_ofPred_eq, Set.mem_empty_iff_false, iff_false, not_and, not_exists]
        intro hz k hk
        rw [hone z k hk] at hz
        exact lt_irrefl _ hz
      rw [this, Set.ncard_empty]
    rw [h0] at h1
    have hs : s = "K".toList := by
      have h1 : "K" = String.ofList s := by simpa using h1
      rw [h1, String.toList_ofList]
    rw [hs] at h5
    exact absurd h5 (not_lt.2 hK)

/-- **C103** (part that holds) When the edges of the table, from the highest energy, are those of the shells K, L1, ... in
this order, each within 0.1 keV of a positive binding energy, all of them are reported. -/
theorem C103_partial (e : Element K) (E V : List K) (edges : SMap Str (K × Nat))
    (h : (e.extractEdges E V).1 = .ok edges)
    (hall : ∀ x i, IsJump E V x i → ∃ s : String,
      ["K", "L1", "L2", "L3", "M1", "M2", "M3", "M4", "M5"][edgesAbove E V x]? = some s ∧
      0 < at0 e.binding s.toList ∧ |x - at0 e.binding s.toList| < 1 / 10)
    (x : K) (i : Nat) (hx : IsJump E V x i) (hi : ∀ k, IsJump E V x k → k ≤ i) :
    ∃ s : String, edges.find? s.toList = some (x, i) := by
  obtain ⟨s, h1, h2, h3⟩ := hall x i hx
  exact ⟨s, (C102_edges e E V edges h s.toList x i).2 ⟨by rw [String.ofList_toList]; exact h1, hx, hi, h2, h3⟩⟩

/-! ### Examples -/

/-- A heavy element. -/
def edgeElement : Element ℚ :=
  { atomicNumber := 82, binding := [("K".toList, 88), ("L1".toList, 16), ("L2".toList, 15), ("L3".toList, 13)],
    muEnergy := [], mu := none, partialE := emptyPartials, partialV := emptyPartials, cacheOn := false, muCache := [],
    excCache := [], shells := [], cascadeOn := false, cascadeCache := [] }

/-- A table with the edges of all its shells: they are found. -/
example : (edgeElement.extractEdges [1, 13, 13, 15, 15, 16, 16, 88, 88, 100] [9, 1, 5, 4, 6, 5, 7, 1, 2, 1]).1
    = .ok [("K".toList, (88, 7)), ("L1".toList, (16, 5)), ("L2".toList, (15, 3)), ("L3".toList, (13, 1))] := by
  decide +kernel

/-- The same table without the K edge: nothing is found, although the energies of the L edges are exact. -/
example : (edgeElement.extractEdges [1, 13, 13, 15, 15, 16, 16, 50] [9, 1, 5, 4, 6, 5, 7, 1]).1 = .ok [] ∧
    IsJump [1, 13, 13, 15, 15, 16, 16, 50] [9, 1, 5, 4, 6, 5, 7, (1 : ℚ)] 16 5 := by
  refine ⟨by decide +kernel, rfl, rfl, 5, 7, rfl, rfl, by norm_num⟩

end Element
end Fisx
