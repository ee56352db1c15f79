import Verif.Multilayer

/-!
# Lemmas about the accumulation loops of `getMultilayerFluorescence`
-/

set_option linter.unusedSectionVars false

namespace Fisx
namespace Multilayer

open Xrf (Request)

variable {K : Type} [Field K] [LinearOrder K]

/-! ### Access to the result -/

theorem linesOf_put (r : Result K) (k k' : String) (i i' : Nat) (t : Str) (v : Leaf K) :
    linesOf (put r k i t v) k' i' = if k = k' ∧ i = i' then (linesOf r k i).insert t v else linesOf r k' i' := by
  unfold linesOf put
  rw [SMap.find?_insert]
  by_cases hk : k = k'
  · subst hk
    simp only [if_true, Option.getD_some, true_and]
    rw [SMap.find?_insert]
    by_cases hi : i = i'
    · subst hi
      simp [linesOf]
    · simp [hi]
  · simp [hk]

theorem leaf?_put (r : Result K) (k k' : String) (i i' : Nat) (t t' : Str) (v : Leaf K) :
    leaf? (put r k i t v) k' i' t' = if k = k' ∧ i = i' ∧ t = t' then some v else leaf? r k' i' t' := by
  unfold leaf?
  rw [linesOf_put]
  by_cases h : k = k' ∧ i = i'
  · obtain ⟨rfl, rfl⟩ := h
    simp [SMap.find?_insert]
  · rw [if_neg h, if_neg (fun hh => h ⟨hh.1, hh.2.1⟩)]

theorem leaf?_put_self (r : Result K) (k : String) (i : Nat) (t : Str) (v : Leaf K) :
    leaf? (put r k i t v) k i t = some v := by rw [leaf?_put]; simp

theorem leaf?_put_line (r : Result K) (k : String) (i : Nat) (t t' : Str) (v : Leaf K) (h : t ≠ t') :
    leaf? (put r k i t v) k i t' = leaf? r k i t' := by rw [leaf?_put]; simp [h]

theorem leaf?_put_cell (r : Result K) (k k' : String) (i i' : Nat) (t t' : Str) (v : Leaf K)
    (h : ¬ (k = k' ∧ i = i')) : leaf? (put r k i t v) k' i' t' = leaf? r k' i' t' := by
  rw [leaf?_put, if_neg (fun hh => h ⟨hh.1, hh.2.1⟩)]

/-- The lines of every cell are a map. -/
def SortedLines (r : Result K) : Prop := ∀ k i, (linesOf r k i).Sorted

theorem sortedLines_put {r : Result K} (h : SortedLines r) (k : String) (i : Nat) (t : Str) (v : Leaf K) :
    SortedLines (put r k i t v) := by
  intro k' i'
  rw [linesOf_put]
  split
  · exact SMap.insert_sorted (h k i) t v
  · exact h k' i'

/-! ### Opening the lines -/

/-- The lines a request looks at. -/
def selected (family : String) (fs : List (Str × Factor K)) : List (Str × Factor K) :=
  fs.filter (fun e => inFamily family e.1 && decide (¬ e.2.factor ≤ 0))

/-- What `openLines` establishes for one line, `r` and `r'` being the results before and after. -/
def Opened (env : Env K) (key : String) (i : Nat) (geometric thr : K) (r r' : Result K) (e : Str × Factor K)
    (p : Tmp K) : Prop :=
  ∃ l, leaf? r' key i e.1 = some l ∧
    p = { energy := l.energy, mu := l.mu, efficiency := l.efficiency, excRate := e.2.rate, primary := 0,
          secondary := 0, rate := 0 } ∧
    (leaf? r key i e.1 = some l ∨ (leaf? r key i e.1 = none ∧ env.mu i e.2.energy = .ok l.mu ∧
      efficiency env i geometric e.2.energy = .ok l.efficiency ∧
      l = { Leaf.zero with energy := e.2.energy, efficiency := l.efficiency, threshold := thr, mu := l.mu }))

theorem openLines_spec (env : Env K) (key family : String) (i : Nat) (geometric thr : K) :
    ∀ (fs : List (Str × Factor K)) (r r' : Result K) (L : List (Str × Tmp K)), (fs.map Prod.fst).Nodup →
      openLines env key family i geometric thr fs r = .ok (L, r') →
      L.map Prod.fst = (selected family fs).map Prod.fst ∧
      (∀ t p, (t, p) ∈ L → ∃ f, (t, f) ∈ selected family fs ∧ Opened env key i geometric thr r r' (t, f) p) ∧
      (∀ k' i' t', ¬ (key = k' ∧ i = i' ∧ t' ∈ L.map Prod.fst) → leaf? r' k' i' t' = leaf? r k' i' t') ∧
      (SortedLines r → SortedLines r') := by
  intro fs
  induction fs with
  | nil =>
    intro r r' L _ h
    simp only [openLines, Outcome.ok.injEq, Prod.mk.injEq] at h
    obtain ⟨rfl, rfl⟩ := h
    simp [selected]
  | cons e rest ih =>
    obtain ⟨t, f⟩ := e
    intro r r' L hnd h
    rw [List.map_cons, List.nodup_cons] at hnd
    obtain ⟨hnt, hnd⟩ := hnd
    rw [openLines] at h
    by_cases h1 : inFamily family t = false
    · rw [if_pos h1] at h
      obtain ⟨a, b, c⟩ := ih r r' L hnd h
      have hs : selected family ((t, f) :: rest) = selected family rest := by
        unfold selected; rw [List.filter_cons]; simp [h1]
      rw [hs]; exact ⟨a, b, c⟩
    rw [if_neg h1] at h
    by_cases h2 : f.factor ≤ 0
    · rw [if_pos h2] at h
      obtain ⟨a, b, c⟩ := ih r r' L hnd h
      have hs : selected family ((t, f) :: rest) = selected family rest := by
        unfold selected; rw [List.filter_cons]; simp [h2]
      rw [hs]; exact ⟨a, b, c⟩
    rw [if_neg h2] at h
    have hs : selected family ((t, f) :: rest) = (t, f) :: selected family rest := by
      unfold selected; rw [List.filter_cons]; simp [h1, not_le.mp h2]
    have hsub : ∀ x ∈ (selected family rest).map Prod.fst, x ≠ t := by
      intro x hx hxt
      subst hxt
      obtain ⟨y, hy, hyx⟩ := List.mem_map.mp hx
      exact hnt (List.mem_map.mpr ⟨y, List.mem_of_mem_filter hy, hyx⟩)
    rw [hs]
    cases hl : leaf? r key i t with
    | some l =>
      simp only [hl] at h
      obtain ⟨⟨L0, r0⟩, h3, h4⟩ := Outcome.bind_eq_ok.mp h
      simp only [Outcome.pure_eq, Outcome.ok.injEq, Prod.mk.injEq] at h4
      obtain ⟨rfl, rfl⟩ := h4
      obtain ⟨a, b, c, d⟩ := ih r r0 L0 hnd h3
      refine ⟨by simp [a], ?_, ?_, d⟩
      · intro t' p' hp
        rcases List.mem_cons.mp hp with hp | hp
        · simp only [Prod.mk.injEq] at hp
          obtain ⟨rfl, rfl⟩ := hp
          refine ⟨f, List.mem_cons_self .., ⟨l, ?_, rfl, Or.inl hl⟩⟩
          rw [c, hl]
          rw [a]
          exact fun hh => hsub _ hh.2.2 rfl
        · obtain ⟨f', hf, ho⟩ := b t' p' hp
          exact ⟨f', List.mem_cons_of_mem _ hf, ho⟩
      · intro k' i' t' hh
        refine c k' i' t' (fun hx => hh ⟨hx.1, hx.2.1, ?_⟩)
        simp only [List.map_cons, List.mem_cons]
        exact Or.inr hx.2.2
    | none =>
      simp only [hl] at h
      obtain ⟨m, h3, h⟩ := Outcome.bind_eq_ok.mp h
      obtain ⟨d0, h4, h⟩ := Outcome.bind_eq_ok.mp h
      obtain ⟨⟨L0, r0⟩, h5, h6⟩ := Outcome.bind_eq_ok.mp h
      simp only [Outcome.pure_eq, Outcome.ok.injEq, Prod.mk.injEq] at h6
      obtain ⟨rfl, rfl⟩ := h6
      obtain ⟨a, b, c, d⟩ := ih _ r0 L0 hnd h5
      refine ⟨by simp [a], ?_, ?_, fun hsr => d (sortedLines_put hsr _ _ _ _)⟩
      · intro t' p' hp
        rcases List.mem_cons.mp hp with hp | hp
        · simp only [Prod.mk.injEq] at hp
          obtain ⟨rfl, rfl⟩ := hp
          refine ⟨f, List.mem_cons_self .., ⟨{ Leaf.zero with energy := f.energy, efficiency := d0, threshold := thr, mu := m },
            ?_, rfl, Or.inr ⟨hl, h3, h4, rfl⟩⟩⟩
          rw [c, leaf?_put_self]
          rw [a]
          exact fun hh => hsub _ hh.2.2 rfl
        · obtain ⟨f', hf, l, ho1, ho2, ho3⟩ := b t' p' hp
          refine ⟨f', List.mem_cons_of_mem _ hf, ⟨l, ho1, ho2, ?_⟩⟩
          have hne : t ≠ t' := fun hh => hsub t' (List.mem_map.mpr ⟨_, hf, rfl⟩) hh.symm
          rw [leaf?_put_line _ _ _ _ _ _ hne] at ho3
          exact ho3
      · intro k' i' t' hh
        rw [c k' i' t' (fun hx => hh ⟨hx.1, hx.2.1, by
          simp only [List.map_cons, List.mem_cons]; exact Or.inr hx.2.2⟩)]
        rw [leaf?_put, if_neg]
        rintro ⟨rfl, rfl, rfl⟩
        exact hh ⟨rfl, rfl, by simp⟩

/-! ### Contributions -/

/-- The sum of the contributions to one line. -/
def contribSum (cs : List (Contribution K)) (t : Str) : K :=
  ((cs.filter (fun c => decide (c.1 = t))).map (fun c => c.2.2)).sum

/-- The contributions of a line after adding some more. -/
def addContribs (m : SMap Str K) (cs : List (Contribution K)) (t : Str) : SMap Str K :=
  (cs.filter (fun c => decide (c.1 = t))).foldl (fun m c => addAt m c.2.1 c.2.2) m

/-- The working values of a line with the contributions added. -/
def Tmp.add (p : Tmp K) (s : K) : Tmp K :=
  { p with secondary := p.secondary + s, rate := p.rate + s * p.efficiency }

theorem addContribution_lines (key : String) (i : Nat) (cs : List (Contribution K)) :
    ∀ (L : List (Str × Tmp K)) (r : Result K),
      (cs.foldl (addContribution key i) (L, r)).1 = L.map (fun e => (e.1, e.2.add (contribSum cs e.1))) := by
  induction cs with
  | nil =>
    intro L r
    simp [contribSum, Tmp.add]
  | cons c rest ih =>
    intro L r
    rw [List.foldl_cons]
    rw [show addContribution key i (L, r) c = ((addContribution key i (L, r) c).1, (addContribution key i (L, r) c).2)
      from rfl, ih]
    simp only [addContribution, List.map_map]
    refine List.map_congr_left (fun e _ => ?_)
    simp only [Function.comp]
    by_cases h : e.1 = c.1
    · simp only [h, if_true, contribSum, List.filter_cons, decide_true, List.map_cons, List.sum_cons, Tmp.add]
      simp only [Prod.mk.injEq, Tmp.mk.injEq, true_and]
      constructor <;> ring
    · have h' : ¬ c.1 = e.1 := fun hh => h hh.symm
      simp only [if_neg h, contribSum, List.filter_cons, h', decide_false]
      rfl

theorem addContribution_leaf (key : String) (i : Nat) (cs : List (Contribution K)) :
    ∀ (L : List (Str × Tmp K)) (r : Result K) (t : Str) (l : Leaf K), leaf? r key i t = some l →
      leaf? (cs.foldl (addContribution key i) (L, r)).2 key i t =
        some { l with contrib := addContribs l.contrib cs t } := by
  induction cs with
  | nil =>
    intro L r t l h
    simpa [addContribs] using h
  | cons c rest ih =>
    intro L r t l h
    rw [List.foldl_cons]
    rw [show addContribution key i (L, r) c = ((addContribution key i (L, r) c).1, (addContribution key i (L, r) c).2)
      from rfl]
    by_cases hc : c.1 = t
    · subst hc
      rw [ih _ _ _ { l with contrib := addAt l.contrib c.2.1 c.2.2 }]
      · simp [addContribs]
      · simp only [addContribution, h, Option.getD_some]
        exact leaf?_put_self _ _ _ _ _
    · rw [ih _ _ _ l]
      · simp [addContribs, hc]
      · simp only [addContribution]
        rw [leaf?_put_line _ _ _ _ _ _ hc]; exact h

theorem addContribution_other (key : String) (i : Nat) (cs : List (Contribution K)) :
    ∀ (L : List (Str × Tmp K)) (r : Result K) (k' : String) (i' : Nat) (t' : Str),
      ¬ (key = k' ∧ i = i' ∧ ∃ c ∈ cs, c.1 = t') →
      leaf? (cs.foldl (addContribution key i) (L, r)).2 k' i' t' = leaf? r k' i' t' := by
  induction cs with
  | nil => intro L r k' i' t' _; rfl
  | cons c rest ih =>
    intro L r k' i' t' h
    rw [List.foldl_cons]
    rw [show addContribution key i (L, r) c = ((addContribution key i (L, r) c).1, (addContribution key i (L, r) c).2)
      from rfl, ih]
    · simp only [addContribution]
      rw [leaf?_put, if_neg]
      rintro ⟨rfl, rfl, rfl⟩
      exact h ⟨rfl, rfl, c, List.mem_cons_self .., rfl⟩
    · rintro ⟨rfl, rfl, x, hx, rfl⟩
      exact h ⟨rfl, rfl, x, List.mem_cons_of_mem _ hx, rfl⟩

theorem addContribution_sorted (key : String) (i : Nat) (cs : List (Contribution K)) :
    ∀ (L : List (Str × Tmp K)) (r : Result K), SortedLines r →
      SortedLines (cs.foldl (addContribution key i) (L, r)).2 := by
  induction cs with
  | nil => intro L r h; exact h
  | cons c rest ih =>
    intro L r h
    rw [List.foldl_cons]
    rw [show addContribution key i (L, r) c = ((addContribution key i (L, r) c).1, (addContribution key i (L, r) c).2)
      from rfl]
    exact ih _ _ (sortedLines_put h _ _ _ _)

theorem addAt_sorted {m : SMap Str K} (h : m.Sorted) (k : Str) (v : K) : (addAt m k v).Sorted :=
  SMap.insert_sorted h _ _

theorem addAt_total {m : SMap Str K} (h : m.Sorted) (k : Str) (v : K) :
    SMap.total (addAt m k v) = SMap.total m + v := by
  unfold addAt
  have := SMap.total_insert m k ((m.find? k).getD 0 + v) h
  linear_combination this

theorem foldl_addAt (cs : List (Contribution K)) : ∀ (m : SMap Str K), m.Sorted →
    (cs.foldl (fun m c => addAt m c.2.1 c.2.2) m).Sorted ∧
    SMap.total (cs.foldl (fun m c => addAt m c.2.1 c.2.2) m) = SMap.total m + (cs.map (fun c => c.2.2)).sum := by
  induction cs with
  | nil => intro m h; exact ⟨h, by simp⟩
  | cons c rest ih =>
    intro m h
    obtain ⟨a, b⟩ := ih _ (addAt_sorted h c.2.1 c.2.2)
    refine ⟨a, ?_⟩
    rw [List.foldl_cons, b, addAt_total h, List.map_cons, List.sum_cons]
    ring

theorem addContribs_total {m : SMap Str K} (h : m.Sorted) (cs : List (Contribution K)) (t : Str) :
    SMap.total (addContribs m cs t) = SMap.total m + contribSum cs t := (foldl_addAt _ m h).2

theorem addContribs_sorted {m : SMap Str K} (h : m.Sorted) (cs : List (Contribution K)) (t : Str) :
    (addContribs m cs t).Sorted := (foldl_addAt _ m h).1

/-! ### Depositing the lines -/

/-- The name of the escape peak `m` of a line. -/
def escName (t m : Str) : Str := t ++ ' ' :: m

/-- A name without blank: a line, and not an escape peak. -/
def Plain (t : Str) : Prop := ' ' ∉ t

instance (t : Str) : Decidable (Plain t) := inferInstanceAs (Decidable (' ' ∉ t))

theorem escName_inj {t u m n : Str} (ht : Plain t) (hu : Plain u) (h : escName t m = escName u n) :
    t = u ∧ m = n := by
  unfold escName at h
  induction t generalizing u with
  | nil =>
    cases u with
    | nil => simpa using h
    | cons c u =>
      simp only [List.nil_append, List.cons_append, List.cons.injEq] at h
      exact absurd (by rw [← h.1]; exact List.mem_cons_self ..) hu
  | cons c t ih =>
    cases u with
    | nil =>
      simp only [List.nil_append, List.cons_append, List.cons.injEq] at h
      exact absurd (by rw [h.1]; exact List.mem_cons_self ..) ht
    | cons d u =>
      simp only [List.cons_append, List.cons.injEq] at h
      obtain ⟨rfl, h⟩ := h
      obtain ⟨rfl, rfl⟩ := ih (fun hh => ht (List.mem_cons_of_mem _ hh)) (fun hh => hu (List.mem_cons_of_mem _ hh)) h
      exact ⟨rfl, rfl⟩

theorem not_plain_escName (t m : Str) : ¬ Plain (escName t m) := by
  unfold Plain escName; simp

theorem plain_ne_escName {u : Str} (h : Plain u) (t m : Str) : escName t m ≠ u := by
  rintro rfl; exact not_plain_escName t m h

/-- An escape peak after receiving its share of a line. -/
def addEscape (o : Option (Leaf K)) (e : Line K) (p : Tmp K) : Leaf K :=
  let l := o.getD { Leaf.zero with energy := e.energy }
  { l with rate := l.rate + e.rate * p.rate, ratio := e.rate, primary := l.primary + e.rate * p.primary,
           secondary := l.secondary + e.rate * p.secondary }

theorem depositEscapes_other (key : String) (i : Nat) (t : Str) (p : Tmp K) (esc : List (String × Line K)) :
    ∀ (r : Result K) (k' : String) (i' : Nat) (t' : Str),
      ¬ (key = k' ∧ i = i' ∧ ∃ e ∈ esc, t' = escName t e.1.toList) →
      leaf? (depositEscapes key i t p esc r) k' i' t' = leaf? r k' i' t' := by
  induction esc with
  | nil => intro r k' i' t' _; rfl
  | cons e rest ih =>
    obtain ⟨n, e⟩ := e
    intro r k' i' t' h
    rw [depositEscapes, ih]
    · rw [leaf?_put, if_neg]
      rintro ⟨rfl, rfl, rfl⟩
      exact h ⟨rfl, rfl, (n, e), List.mem_cons_self .., rfl⟩
    · rintro ⟨rfl, rfl, x, hx, rfl⟩
      exact h ⟨rfl, rfl, x, List.mem_cons_of_mem _ hx, rfl⟩

theorem depositEscapes_self (key : String) (i : Nat) (t : Str) (p : Tmp K) (esc : List (String × Line K)) :
    ∀ (r : Result K) (n : String) (e : Line K), (esc.map Prod.fst).Nodup → (n, e) ∈ esc →
      leaf? (depositEscapes key i t p esc r) key i (escName t n.toList) =
        some (addEscape (leaf? r key i (escName t n.toList)) e p) := by
  induction esc with
  | nil => intro r n e _ h; simp at h
  | cons x rest ih =>
    obtain ⟨n0, e0⟩ := x
    intro r n e hnd h
    rw [List.map_cons, List.nodup_cons] at hnd
    rw [depositEscapes]
    rcases List.mem_cons.mp h with h | h
    · simp only [Prod.mk.injEq] at h
      obtain ⟨rfl, rfl⟩ := h
      rw [depositEscapes_other]
      · exact leaf?_put_self ..
      · rintro ⟨-, -, x, hx, h⟩
        unfold escName at h
        have : n.toList = x.1.toList := by simpa using h
        have h2 := String.toList_injective this
        exact hnd.1 (List.mem_map.mpr ⟨x, hx, h2.symm⟩)
    · have hne : n0 ≠ n := by
        rintro rfl
        exact hnd.1 (List.mem_map.mpr ⟨_, h, rfl⟩)
      rw [ih _ n e hnd.2 h, leaf?_put_line]
      intro h3
      unfold escName at h3
      exact hne (String.toList_injective (by simpa using h3))

theorem depositEscapes_sorted (key : String) (i : Nat) (t : Str) (p : Tmp K) (esc : List (String × Line K)) :
    ∀ (r : Result K), SortedLines r → SortedLines (depositEscapes key i t p esc r) := by
  induction esc with
  | nil => intro r h; exact h
  | cons e rest ih => intro r h; exact ih _ (sortedLines_put h _ _ _ _)

/-- The escape peaks of an energy: none without detector. -/
def escapesOf (env : Env K) (e : K) : Outcome (SMap String (Line K)) :=
  if env.hasDetector then env.escape e else .ok []

/-- The sum of the escape rates. -/
def escapeTotal (esc : SMap String (Line K)) : K := (esc.map (fun e => e.2.rate)).sum

/-- A line after receiving what does not escape. -/
def addLine (l : Leaf K) (esc : SMap String (Line K)) (p : Tmp K) (mf : K) : Leaf K :=
  { l with rate := l.rate + (1 - escapeTotal esc) * p.rate, primary := l.primary + p.primary,
           secondary := l.secondary + p.secondary, massFraction := mf }

theorem deposit_spec (env : Env K) (key : String) (i : Nat) (mf : K)
    (hesc : ∀ e esc, env.escape e = .ok esc → (esc.map Prod.fst).Nodup) :
    ∀ (L : List (Str × Tmp K)) (r r' : Result K), (L.map Prod.fst).Nodup → (∀ t ∈ L.map Prod.fst, Plain t) →
      deposit env key i mf L r = .ok r' →
      (∀ t p, (t, p) ∈ L → ∃ esc, escapesOf env p.energy = .ok esc ∧
        leaf? r' key i t = some (addLine ((leaf? r key i t).getD Leaf.zero) esc p mf) ∧
        ∀ m, leaf? r' key i (escName t m) = match SMap.find? esc (String.ofList m) with
          | some e => some (addEscape (leaf? r key i (escName t m)) e p)
          | none => leaf? r key i (escName t m)) ∧
      (∀ k' i' t', ¬ (key = k' ∧ i = i' ∧ (t' ∈ L.map Prod.fst ∨ ∃ t ∈ L.map Prod.fst, ∃ m, t' = escName t m)) →
        leaf? r' k' i' t' = leaf? r k' i' t') ∧
      (SortedLines r → SortedLines r') := by
  intro L
  induction L with
  | nil =>
    intro r r' _ _ h
    simp only [deposit, Outcome.ok.injEq] at h
    subst h
    simp
  | cons x rest ih =>
    obtain ⟨t, p⟩ := x
    intro r r' hnd hpl h
    rw [List.map_cons, List.nodup_cons] at hnd
    rw [List.map_cons] at hpl
    have hpt : Plain t := hpl t (List.mem_cons_self ..)
    have hpr : ∀ u ∈ rest.map Prod.fst, Plain u := fun u hu => hpl u (List.mem_cons_of_mem _ hu)
    rw [deposit] at h
    obtain ⟨esc, h1, h2⟩ := Outcome.bind_eq_ok.mp h
    have hend : (esc.map Prod.fst).Nodup := by
      revert h1
      split
      · exact fun h1 => hesc _ _ h1
      · intro h1
        simp only [Outcome.ok.injEq] at h1
        subst h1; simp
    obtain ⟨a, b, c⟩ := ih _ r' hnd.2 hpr h2
    have hmid : ∀ u, u ∈ rest.map Prod.fst → leaf? (put (depositEscapes key i t p esc r) key i t
        (addLine ((leaf? (depositEscapes key i t p esc r) key i t).getD Leaf.zero) esc p mf)) key i u
        = leaf? r key i u ∧ ∀ m, leaf? (put (depositEscapes key i t p esc r) key i t
        (addLine ((leaf? (depositEscapes key i t p esc r) key i t).getD Leaf.zero) esc p mf)) key i (escName u m)
        = leaf? r key i (escName u m) := by
      intro u hu
      have hut : t ≠ u := fun hh => hnd.1 (hh ▸ hu)
      refine ⟨?_, fun m => ?_⟩
      · rw [leaf?_put_line _ _ _ _ _ _ hut, depositEscapes_other]
        rintro ⟨-, -, e, he, hh⟩
        exact plain_ne_escName (hpr u hu) _ _ hh.symm
      · rw [leaf?_put_line _ _ _ _ _ _ (plain_ne_escName hpt u m).symm, depositEscapes_other]
        rintro ⟨-, -, e, he, hh⟩
        exact hut (escName_inj (hpr u hu) hpt hh).1.symm
    have hself : leaf? (depositEscapes key i t p esc r) key i t = leaf? r key i t := by
      rw [depositEscapes_other]
      rintro ⟨-, -, e, he, hh⟩
      exact plain_ne_escName hpt _ _ hh.symm
    refine ⟨?_, ?_, ?_⟩
    · intro t' p' hp
      rcases List.mem_cons.mp hp with hp | hp
      · simp only [Prod.mk.injEq] at hp
        obtain ⟨rfl, rfl⟩ := hp
        refine ⟨esc, h1, ?_, ?_⟩
        · rw [b key i t', leaf?_put_self, hself]
          · rfl
          · rintro ⟨-, -, hh | ⟨u, hu, m, hh⟩⟩
            · exact hnd.1 hh
            · exact plain_ne_escName hpt _ _ hh.symm
        · intro m
          rw [b key i (escName t' m), leaf?_put_line _ _ _ _ _ _ (plain_ne_escName hpt t' m).symm]
          · cases hf : SMap.find? esc (String.ofList m) with
            | some e =>
              have := depositEscapes_self key i t' p' esc r (String.ofList m) e hend (SMap.mem_of_find? hf)
              simpa using this
            | none =>
              simp only
              rw [depositEscapes_other]
              rintro ⟨-, -, e, he, hh⟩
              have := (escName_inj hpt hpt hh).2
              rw [this, String.ofList_toList] at hf
              exact (SMap.find?_eq_none_iff _ _).mp hf e he rfl
          · rintro ⟨-, -, hh | ⟨u, hu, n, hh⟩⟩
            · exact not_plain_escName _ _ (hpr _ hh)
            · exact hnd.1 ((escName_inj hpt (hpr u hu) hh).1 ▸ hu)
      · obtain ⟨esc', e1, e2, e3⟩ := a t' p' hp
        have hm := hmid t' (List.mem_map.mpr ⟨_, hp, rfl⟩)
        refine ⟨esc', e1, ?_, ?_⟩
        · rw [e2]
          exact congrArg (fun o => some (addLine (Option.getD o Leaf.zero) esc' p' mf)) hm.1
        · intro m
          rw [e3 m]
          have := hm.2 m
          cases SMap.find? esc' (String.ofList m) with
          | some e => exact congrArg (fun o => some (addEscape o e p')) this
          | none => exact this
    · intro k' i' t' hh
      rw [b k' i' t']
      · rw [leaf?_put, if_neg, depositEscapes_other]
        · rintro ⟨rfl, rfl, e, he, rfl⟩
          exact hh ⟨rfl, rfl, Or.inr ⟨t, by simp, _, rfl⟩⟩
        · rintro ⟨rfl, rfl, rfl⟩
          exact hh ⟨rfl, rfl, Or.inl (by simp)⟩
      · rintro ⟨rfl, rfl, h3 | ⟨u, hu, m, rfl⟩⟩
        · exact hh ⟨rfl, rfl, Or.inl (by simp only [List.map_cons, List.mem_cons]; exact Or.inr h3)⟩
        · exact hh ⟨rfl, rfl, Or.inr ⟨u, by simp only [List.map_cons, List.mem_cons]; exact Or.inr hu, m, rfl⟩⟩
    · intro hs
      exact c (sortedLines_put (depositEscapes_sorted _ _ _ _ _ _ hs) _ _ _ _)

/-! ### The lines of the contributions -/

theorem lineLoop_mem {f : Str → Tmp K → Outcome (Option K)} {name : Str} : ∀ {L : List (Str × Tmp K)}
    {cs : List (Contribution K)}, lineLoop f name L = .ok cs → ∀ c ∈ cs, c.1 ∈ L.map Prod.fst := by
  intro L
  induction L with
  | nil =>
    intro cs h
    simp only [lineLoop, Outcome.ok.injEq] at h
    subst h; simp
  | cons x rest ih =>
    obtain ⟨t, p⟩ := x
    intro cs h c hc
    rw [lineLoop] at h
    obtain ⟨v, _, h⟩ := Outcome.bind_eq_ok.mp h
    obtain ⟨r, h2, h⟩ := Outcome.bind_eq_ok.mp h
    cases v with
    | none =>
      simp only [Outcome.pure_eq, Outcome.ok.injEq] at h
      subst h
      exact List.mem_cons_of_mem _ (ih h2 c hc)
    | some v =>
      simp only [Outcome.pure_eq, Outcome.ok.injEq] at h
      subst h
      rcases List.mem_cons.mp hc with rfl | hc
      · exact List.mem_cons_self ..
      · exact List.mem_cons_of_mem _ (ih h2 c hc)

theorem emissionLoop_mem {env : Env K} {element : String} {thr : K} {j : Nat} {L : List (Str × Tmp K)}
    {f : Emission K → SMap Str (Factor K) → Str → Tmp K → Outcome (Option K)} : ∀ {ems : List (Emission K)}
    {cs : List (Contribution K)}, emissionLoop env element thr j L f ems = .ok cs → ∀ c ∈ cs, c.1 ∈ L.map Prod.fst := by
  intro ems
  induction ems with
  | nil =>
    intro cs h
    simp only [emissionLoop, Outcome.ok.injEq] at h
    subst h; simp
  | cons em rest ih =>
    intro cs h c hc
    rw [emissionLoop] at h
    split at h
    · exact ih h c hc
    · obtain ⟨fs, _, h⟩ := Outcome.bind_eq_ok.mp h
      obtain ⟨a, h2, h⟩ := Outcome.bind_eq_ok.mp h
      obtain ⟨r, h3, h⟩ := Outcome.bind_eq_ok.mp h
      simp only [Outcome.pure_eq, Outcome.ok.injEq] at h
      subst h
      rcases List.mem_append.mp hc with hc | hc
      · exact lineLoop_mem h2 c hc
      · exact ih h3 c hc

theorem secondaryLoop_mem {env : Env K} {rd : RayData K} {element : String} {thr : K} {i : Nat} {l : LayerData K}
    {muIn lw frac : K} {L : List (Str × Tmp K)} : ∀ {n j : Nat} {cs : List (Contribution K)},
    secondaryLoop env rd element thr i l muIn lw frac L j n = .ok cs → ∀ c ∈ cs, c.1 ∈ L.map Prod.fst := by
  intro n
  induction n with
  | zero =>
    intro j cs h
    simp only [secondaryLoop, Outcome.ok.injEq] at h
    subst h; simp
  | succ n ih =>
    intro j cs h c hc
    rw [secondaryLoop] at h
    obtain ⟨ems, _, h⟩ := Outcome.bind_eq_ok.mp h
    obtain ⟨p, _, h⟩ := Outcome.bind_eq_ok.mp h
    obtain ⟨l2, _, h⟩ := Outcome.bind_eq_ok.mp h
    obtain ⟨a, h2, h⟩ := Outcome.bind_eq_ok.mp h
    obtain ⟨r, h3, h⟩ := Outcome.bind_eq_ok.mp h
    simp only [Outcome.pure_eq, Outcome.ok.injEq] at h
    subst h
    rcases List.mem_append.mp hc with hc | hc
    · split at h2
      · exact emissionLoop_mem h2 c hc
      · split at h2
        · simp only [Outcome.ok.injEq] at h2
          subst h2; simp at hc
        · exact emissionLoop_mem h2 c hc
    · exact ih h3 c hc

/-! ### One cell -/

/-- The contributions of the secondary excitation to the lines of a cell. -/
def cellContribs (env : Env K) (o : Options K) (rd : RayData K) (element : String) (thr : K) (i : Nat) (l : LayerData K)
    (muIn lw frac : K) (lines : List (Str × Tmp K)) : Outcome (List (Contribution K)) :=
  if o.secondary > 0 then secondaryLoop env rd element thr i l muIn lw frac lines 0 env.layers.length else .ok []

/-- The fraction of the element that is used: its mass fraction, or 1. -/
def fracOf (o : Options K) (l : LayerData K) (element : String) : K :=
  if o.useMassFractions then (l.composition.find? element).getD 0 else 1

/-- What a cell that is calculated does to one line, `r` and `r'` being the results before and after, `l0` the entry the
line starts from. -/
structure LineEffect (env : Env K) (key : String) (i : Nat) (layer : LayerData K) (thr mf : K) (r r' : Result K)
    (cs : List (Contribution K)) (muIn lw frac : K) (t : Str) (f : Factor K) (l0 : Leaf K)
    (esc : SMap String (Line K)) : Prop where
  base : leaf? r key i t = some l0 ∨ (leaf? r key i t = none ∧ env.mu i f.energy = .ok l0.mu ∧
    efficiency env i layer.geometric f.energy = .ok l0.efficiency ∧
    l0 = { Leaf.zero with energy := f.energy, efficiency := l0.efficiency, threshold := thr, mu := l0.mu })
  escapes : escapesOf env l0.energy = .ok esc
  line : leaf? r' key i t = some (addLine { l0 with contrib := addContribs l0.contrib cs t } esc
    ((primaryOf env layer muIn lw frac { energy := l0.energy, mu := l0.mu, efficiency := l0.efficiency,
                                         excRate := f.rate, primary := 0, secondary := 0, rate := 0 }).add
      (contribSum cs t)) mf)
  escape : ∀ m, leaf? r' key i (escName t m) = match SMap.find? esc (String.ofList m) with
    | some e => some (addEscape (leaf? r key i (escName t m)) e
        ((primaryOf env layer muIn lw frac { energy := l0.energy, mu := l0.mu, efficiency := l0.efficiency,
                                             excRate := f.rate, primary := 0, secondary := 0, rate := 0 }).add
          (contribSum cs t)))
    | none => leaf? r key i (escName t m)

/-- The key of a request in the result. -/
def keyOf (req : Request) : String := req.element ++ " " ++ req.family

/-- The cell is calculated at all. -/
def Active (o : Options K) (req : Request) (i : Nat) (l : LayerData K) (factors : SMap Str (Factor K)) : Prop :=
  ¬ (req.layer ≥ 0 ∧ (i : Int) ≠ req.layer) ∧ fracOf o l req.element ≠ 0 ∧ selected req.family factors ≠ []

theorem primaryOf_fst (env : Env K) (l : LayerData K) (muIn lw frac : K) (L : List (Str × Tmp K)) :
    (L.map (fun e => (e.1, primaryOf env l muIn lw frac e.2))).map Prod.fst = L.map Prod.fst := by
  simp [List.map_map, Function.comp_def]

theorem cell_spec (env : Env K) (o : Options K) (rd : RayData K) (req : Request) (thr : K)
    (factors : SMap Str (Factor K)) (i : Nat) (l : LayerData K) (r r' : Result K)
    (hesc : ∀ e esc, env.escape e = .ok esc → (esc.map Prod.fst).Nodup)
    (hnd : (factors.map Prod.fst).Nodup) (hpl : ∀ t ∈ factors.map Prod.fst, Plain t)
    (h : cell env o rd req thr factors i l r = .ok r') :
    (¬ Active o req i l factors ∧ r' = r) ∨
    (Active o req i l factors ∧ ∃ muIn lw mu0 lines cs, env.mu i rd.energy = .ok muIn ∧
      vget rd.incident i = .ok (lw, mu0) ∧
      lines.map Prod.fst = (selected req.family factors).map Prod.fst ∧
      cellContribs env o rd req.element thr i l muIn lw (fracOf o l req.element) lines = .ok cs ∧
      (∀ t p, (t, p) ∈ lines → ∃ f l0 esc, (t, f) ∈ selected req.family factors ∧
        p = primaryOf env l muIn lw (fracOf o l req.element)
          { energy := l0.energy, mu := l0.mu, efficiency := l0.efficiency, excRate := f.rate, primary := 0,
            secondary := 0, rate := 0 } ∧
        LineEffect env (keyOf req) i l thr ((l.composition.find? req.element).getD 0) r r' cs muIn lw
          (fracOf o l req.element) t f l0 esc) ∧
      (∀ k' i' t', ¬ (keyOf req = k' ∧ i = i' ∧ (t' ∈ (selected req.family factors).map Prod.fst ∨
          ∃ t ∈ (selected req.family factors).map Prod.fst, ∃ m, t' = escName t m)) →
        leaf? r' k' i' t' = leaf? r k' i' t') ∧
      (SortedLines r → SortedLines r')) := by
  unfold cell at h
  by_cases h1 : req.layer ≥ 0 ∧ (i : Int) ≠ req.layer
  · rw [if_pos h1] at h
    simp only [Outcome.ok.injEq] at h
    exact Or.inl ⟨fun ha => ha.1 h1, h.symm⟩
  rw [if_neg h1] at h
  simp only at h
  have hfr : (if o.useMassFractions then (l.composition.find? req.element).getD 0 else 1) =
    fracOf o l req.element := rfl
  rw [hfr] at h
  clear hfr
  by_cases h2' : fracOf o l req.element = 0
  · rw [if_pos h2'] at h
    simp only [Outcome.ok.injEq] at h
    exact Or.inl ⟨fun ha => ha.2.1 h2', h.symm⟩
  rw [if_neg h2'] at h
  obtain ⟨⟨L0, r1⟩, h3, h⟩ := Outcome.bind_eq_ok.mp h
  simp only at h
  obtain ⟨a, b, c, d⟩ := openLines_spec env _ _ i l.geometric thr factors r r1 L0 hnd h3
  by_cases h4 : L0 = []
  · rw [if_pos h4] at h
    simp only [Outcome.pure_eq, Outcome.ok.injEq] at h
    subst h4
    have hsel : selected req.family factors = [] := by
      have := a.symm
      rw [List.map_nil, List.map_eq_nil_iff] at this
      exact this
    refine Or.inl ⟨fun ha => ha.2.2 hsel, ?_⟩
    -- nothing was opened
    have : ∀ (fs : List (Str × Factor K)) (r r1 : Result K),
        openLines env (req.element ++ " " ++ req.family) req.family i l.geometric thr fs r = .ok ([], r1) → r1 = r := by
      intro fs
      induction fs with
      | nil =>
        intro r r1 h
        simp only [openLines, Outcome.ok.injEq, Prod.mk.injEq] at h
        exact h.2.symm
      | cons e rest ih =>
        obtain ⟨t, f⟩ := e
        intro r r1 h
        rw [openLines] at h
        split at h
        · exact ih r r1 h
        · split at h
          · exact ih r r1 h
          · split at h
            · obtain ⟨x, _, hx⟩ := Outcome.bind_eq_ok.mp h
              simp at hx
            · obtain ⟨m, _, h⟩ := Outcome.bind_eq_ok.mp h
              obtain ⟨d0, _, h⟩ := Outcome.bind_eq_ok.mp h
              obtain ⟨x, _, hx⟩ := Outcome.bind_eq_ok.mp h
              simp at hx
    rw [← h]
    exact this factors r r1 h3
  rw [if_neg h4] at h
  obtain ⟨muIn, h5, h⟩ := Outcome.bind_eq_ok.mp h
  obtain ⟨⟨lw, mu0⟩, h6, h⟩ := Outcome.bind_eq_ok.mp h
  obtain ⟨cs, h7, h⟩ := Outcome.bind_eq_ok.mp h
  have hact : Active o req i l factors := by
    refine ⟨h1, h2', fun hs => h4 ?_⟩
    rw [hs, List.map_nil, List.map_eq_nil_iff] at a
    exact a
  refine Or.inr ⟨hact, muIn, lw, mu0, _, cs, h5, h6, (primaryOf_fst env l muIn lw (fracOf o l req.element) L0).trans a,
    h7, ?_⟩
  -- the contributions concern the opened lines only
  have hcs : ∀ x ∈ cs, x.1 ∈ L0.map Prod.fst := by
    intro x hx
    split at h7
    · have := secondaryLoop_mem h7 x hx
      rwa [primaryOf_fst] at this
    · simp only [Outcome.ok.injEq] at h7
      subst h7; simp at hx
  have hnames : (selected req.family factors).map Prod.fst = L0.map Prod.fst := a.symm
  have hselsub : ∀ t ∈ L0.map Prod.fst, t ∈ factors.map Prod.fst := by
    intro t ht
    rw [a] at ht
    obtain ⟨y, hy, rfl⟩ := List.mem_map.mp ht
    exact List.mem_map.mpr ⟨y, List.mem_of_mem_filter hy, rfl⟩
  have hplain : ∀ t ∈ L0.map Prod.fst, Plain t := fun t ht => hpl t (hselsub t ht)
  have hndL : (L0.map Prod.fst).Nodup := by
    rw [a]
    exact List.Nodup.sublist (List.Sublist.map _ List.filter_sublist) hnd
  rw [addContribution_lines] at h
  simp only [List.map_map, Function.comp_def] at h
  have hmapfst : (L0.map (fun e => (e.1, (primaryOf env l muIn lw (fracOf o l req.element) e.2).add
      (contribSum cs e.1)))).map Prod.fst = L0.map Prod.fst := by
    simp [List.map_map, Function.comp_def]
  obtain ⟨e1, e2, e3⟩ := deposit_spec env _ i _ hesc _ _ r' (by rw [hmapfst]; exact hndL)
    (by rw [hmapfst]; exact hplain) h
  refine ⟨?_, ?_, fun hs => e3 (addContribution_sorted _ _ _ _ _ (d hs))⟩
  · intro t p hp
    obtain ⟨q, hq, hqe⟩ := List.mem_map.mp hp
    simp only [Prod.mk.injEq] at hqe
    obtain ⟨rfl, rfl⟩ := hqe
    obtain ⟨f, hf, l0, ho1, ho2, ho3⟩ := b q.1 q.2 hq
    obtain ⟨esc, g1, g2, g3⟩ := e1 q.1 _ (List.mem_map.mpr ⟨q, hq, rfl⟩)
    have hen : ((primaryOf env l muIn lw (fracOf o l req.element) q.2).add (contribSum cs q.1)).energy = l0.energy := by
      rw [ho2]; rfl
    refine ⟨f, l0, esc, hf, by rw [ho2], ⟨ho3, by rw [← hen]; exact g1, ?_, ?_⟩⟩
    · have hl := addContribution_leaf (req.element ++ " " ++ req.family) i cs
        (L0.map (fun e => (e.1, primaryOf env l muIn lw (fracOf o l req.element) e.2))) r1 q.1 l0 ho1
      unfold keyOf
      rw [g2]
      rw [ho2]
      refine congrArg some ?_
      refine congrArg (fun x => addLine x esc _ _) ?_
      refine (congrArg (fun x => Option.getD x Leaf.zero) hl).trans ?_
      rfl
    · intro m
      have hpq : Plain q.1 := hplain _ (List.mem_map.mpr ⟨q, hq, rfl⟩)
      have hunch : leaf? (cs.foldl (addContribution (req.element ++ " " ++ req.family) i)
          (L0.map (fun e => (e.1, primaryOf env l muIn lw (fracOf o l req.element) e.2)), r1)).2
          (req.element ++ " " ++ req.family) i (escName q.1 m) = leaf? r (req.element ++ " " ++ req.family) i
            (escName q.1 m) := by
        rw [addContribution_other, c]
        · rintro ⟨-, -, hh⟩
          exact not_plain_escName _ _ (hplain _ hh)
        · rintro ⟨-, -, x, hx, hh⟩
          exact not_plain_escName _ _ (hh ▸ hplain _ (hcs x hx))
      unfold keyOf
      rw [g3 m, ho2]
      cases SMap.find? esc (String.ofList m) with
      | some e => exact congrArg (fun x => some (addEscape x e _)) hunch
      | none => exact hunch
  · intro k' i' t' hh
    rw [hnames] at hh
    rw [e2 k' i' t' (by rw [hmapfst]; exact hh), addContribution_other, c]
    · rintro ⟨h8, h9, h10⟩
      exact hh ⟨h8, h9, Or.inl h10⟩
    · rintro ⟨h8, h9, x, hx, rfl⟩
      exact hh ⟨h8, h9, Or.inl (hcs x hx)⟩

end Multilayer
end Fisx
