import Verif.ElementCache

/-!
# Names and energies of the emitted lines, with and without caches
-/

set_option linter.unusedSectionVars false

namespace Fisx
namespace Element

variable {K : Type} [Field K] [LinearOrder K] [IsStrictOrderedRing K]

/-- `t` is a line of one of the shells, of energy `en`. -/
def LineOf (e : Element K) (t : Str) (en : K) : Prop :=
  ∃ k s r, e.shells.find? k = some s ∧ (t, r) ∈ s.fluorescence ∧ lineEnergy e k t = .ok en

/-- A sorted map of such lines. -/
def LinesOf (e : Element K) (m : SMap Str (Line K)) : Prop :=
  SMap.Sorted m ∧ ∀ t l, m.find? t = some l → LineOf e t l.energy

theorem linesOf_nil (e : Element K) : LinesOf e [] := ⟨List.Pairwise.nil, fun t l h => by cases h⟩

theorem linesOf_insert {e : Element K} {m : SMap Str (Line K)} (h : LinesOf e m) {t : Str} {l : Line K}
    (hl : LineOf e t l.energy) : LinesOf e (m.insert t l) := by
  refine ⟨SMap.insert_sorted h.1 _ _, fun u l' hu => ?_⟩
  rw [SMap.find?_insert] at hu
  split at hu
  · rename_i hut
    cases hu
    rw [← hut]; exact hl
  · exact h.2 u l' hu

theorem linesOf_congr {e e' : Element K} (h : SameEmission e e') {m : SMap Str (Line K)} (hm : LinesOf e m) :
    LinesOf e' m := by
  refine ⟨hm.1, fun t l ht => ?_⟩
  obtain ⟨k, s, r, h1, h2, h3⟩ := hm.2 t l ht
  exact ⟨k, s, r, by rw [← h.shells]; exact h1, h2, by rw [← h.energy]; exact h3⟩

theorem linesOfShell_linesOf {e : Element K} {y : Bool} {k : Str} {s : Shell K} {v : K}
    (hs : e.shells.find? k = some s) (ratios : List (Str × K)) :
    (∀ p ∈ ratios, p ∈ s.fluorescence) → ∀ acc out, LinesOf e acc → linesOfShell e y k s v ratios acc = .ok out →
      LinesOf e out := by
  induction ratios with
  | nil =>
    intro _ acc out ha h
    simp only [linesOfShell, Outcome.ok.injEq] at h
    subst h; exact ha
  | cons p rest ih =>
    obtain ⟨t, r⟩ := p
    intro hp acc out ha h
    have hp' : ∀ p ∈ rest, p ∈ s.fluorescence := fun p hq => hp p (List.mem_cons_of_mem _ hq)
    unfold linesOfShell at h
    obtain ⟨rate, h1, h⟩ := Outcome.bind_eq_ok.mp h
    split at h
    · obtain ⟨en, h2, h⟩ := Outcome.bind_eq_ok.mp h
      refine ih hp' _ _ (linesOf_insert ha ?_) h
      exact ⟨k, s, r, hs, hp _ List.mem_cons_self, h2⟩
    · exact ih hp' _ _ ha h

theorem linesLoop_linesOf {e : Element K} {y : Bool} (dist : List (Str × K)) :
    ∀ acc out, LinesOf e acc → linesLoop e y dist acc = .ok out → LinesOf e out := by
  induction dist with
  | nil =>
    intro acc out ha h
    simp only [linesLoop, Outcome.ok.injEq] at h
    subst h; exact ha
  | cons p rest ih =>
    obtain ⟨k, v⟩ := p
    intro acc out ha h
    unfold linesLoop at h
    split at h
    · cases h
    · rename_i s hs
      obtain ⟨acc', h1, h⟩ := Outcome.bind_eq_ok.mp h
      exact ih _ _ (linesOfShell_linesOf hs _ (fun p hp => hp) _ _ ha h1) h

theorem getLines_linesOf_off {e : Element K} (hoff : e.cascadeOn = false ∨ e.cascadeCache = []) {d : SMap Str K}
    {c y : Bool} {out : SMap Str (Line K)} (h : e.getLines d c y = .ok out) : LinesOf e out := by
  unfold getLines at h
  split at h
  · split at h
    · rename_i hx
      rcases hoff with ho | ho
      · rw [ho] at hx; cases hx.1
      · rw [ho] at hx; simp at hx
    · obtain ⟨f, h1, h⟩ := Outcome.bind_eq_ok.mp h
      exact linesLoop_linesOf _ _ _ (linesOf_nil e) h
  · exact linesLoop_linesOf _ _ _ (linesOf_nil e) h

theorem fillCascadeLoop_linesOf {e : Element K} (subs : List Str) :
    ∀ cache cache', (∀ s m, SMap.find? cache s = some m → LinesOf e m) → fillCascadeLoop e subs cache = (.ok (), cache') →
      ∀ s m, SMap.find? cache' s = some m → LinesOf e m := by
  induction subs with
  | nil =>
    intro cache cache' hc h
    simp only [fillCascadeLoop, Prod.mk.injEq, true_and] at h
    subst h; exact hc
  | cons s rest ih =>
    intro cache cache' hc h
    unfold fillCascadeLoop at h
    split at h
    · rename_i l hl
      refine ih _ _ ?_ h
      intro u m hu
      rw [SMap.find?_insert] at hu
      split at hu
      · cases hu
        have := getLines_linesOf_off (e := { e with cascadeOn := false }) (Or.inl rfl) hl
        exact linesOf_congr (e' := e) ⟨rfl, fun _ _ => rfl⟩ this
      · exact hc u m hu
    · cases h
    · cases h
    · cases h

theorem addCached_linesOf {e : Element K} {w : K} (lines : List (Str × Line K)) :
    (∀ p ∈ lines, LineOf e p.1 p.2.energy) → ∀ acc, LinesOf e acc → LinesOf e (addCached w lines acc) := by
  induction lines with
  | nil => intro _ acc ha; exact ha
  | cons p rest ih =>
    obtain ⟨t, l⟩ := p
    intro hp acc ha
    unfold addCached
    apply ih (fun p hq => hp p (List.mem_cons_of_mem _ hq))
    split
    · exact linesOf_insert ha (hp _ List.mem_cons_self)
    · rename_i o ho
      exact linesOf_insert ha (ha.2 t o ho)

theorem cachedLoop_linesOf {e : Element K} {cache : SMap Str (SMap Str (Line K))}
    (hc : ∀ s m, SMap.find? cache s = some m → LinesOf e m) (d : List (Str × K)) :
    ∀ acc out, LinesOf e acc → cachedLoop cache d acc = .ok out → LinesOf e out := by
  induction d with
  | nil =>
    intro acc out ha h
    simp only [cachedLoop, Outcome.ok.injEq] at h
    subst h; exact ha
  | cons p rest ih =>
    obtain ⟨k, v⟩ := p
    intro acc out ha h
    unfold cachedLoop at h
    split at h
    · exact ih _ _ ha h
    · split at h
      · cases h
      · rename_i lines hl
        refine ih _ _ (addCached_linesOf _ ?_ _ ha) h
        intro q hq
        have hm := hc _ _ hl
        exact hm.2 q.1 q.2 (SMap.find?_of_mem hm.1 hq)

/-- All lines are lines of the shells, with the current energies, whether the cascade cache is used or not. -/
theorem getLines_linesOf {e : Element K} (hf : Fresh e) {d : SMap Str K} {c y : Bool} {out : SMap Str (Line K)}
    (h : e.getLines d c y = .ok out) : LinesOf e out := by
  rcases hf with h0 | ⟨e1, e1', h1, h2, h3⟩
  · exact getLines_linesOf_off (Or.inr h0) h
  · by_cases hx : c = true ∧ e.cascadeOn = true ∧ y = true ∧ e.cascadeCache.length > 0
    · obtain ⟨rfl, ho, rfl, hl⟩ := hx
      unfold getLines at h
      rw [if_pos rfl, if_pos ⟨ho, rfl, hl⟩] at h
      refine cachedLoop_linesOf ?_ _ _ _ (linesOf_nil e) h
      intro s m hm
      unfold fillCascadeCache at h1
      dsimp only at h1
      split at h1
      · rename_i hr
        cases h1
        rw [← h2] at hm
        exact linesOf_congr h3 (fillCascadeLoop_linesOf (e := e1) _ [] _ (fun s m h => by cases h) (Prod.ext hr rfl) s m hm)
      · simp only [Prod.mk.injEq] at h1
        rename_i hr
        exact absurd h1.1 (by intro hh; exact hr hh)
    · unfold getLines at h
      split at h
      · rename_i hc
        rw [if_neg (fun hh => hx ⟨hc, hh⟩)] at h
        obtain ⟨f, h1, h⟩ := Outcome.bind_eq_ok.mp h
        exact linesLoop_linesOf _ _ _ (linesOf_nil e) h
      · exact linesLoop_linesOf _ _ _ (linesOf_nil e) h

section factors

variable [Trans K]

/-- The same for the excitation factors, with the calculation cache on or off. -/
theorem getFactors_lines {e : Element K} (hf : Fresh e) (hc : CacheTrue e) {x w : K} {fs : SMap Str (Factor K)}
    (h : e.getFactors x w = .ok fs) : SMap.Sorted fs ∧ ∀ t f, fs.find? t = some f → LineOf e t f.energy := by
  rw [(cacheTrue_transparent hc x w).2] at h
  simp only [getFactors, Bool.false_eq_true, if_false] at h
  unfold computeFactors at h
  obtain ⟨vac, h1, h⟩ := Outcome.bind_eq_ok.mp h
  obtain ⟨lines, h2, h⟩ := Outcome.bind_eq_ok.mp h
  have hl : LinesOf e lines := by
    have hs : SameEmission ({ e with cacheOn := false } : Element K) e := ⟨rfl, fun _ _ => rfl⟩
    refine linesOf_congr hs (getLines_linesOf (e := { e with cacheOn := false }) ?_ h2)
    exact fresh_congr hf hs.symm rfl
  split at h
  · cases h
    exact ⟨List.Pairwise.nil, fun t f hh => by cases hh⟩
  · obtain ⟨m, h3, h⟩ := Outcome.bind_eq_ok.mp h
    simp only [Outcome.pure_eq, Outcome.ok.injEq] at h
    subst h
    constructor
    · unfold SMap.Sorted
      rw [List.pairwise_map]
      exact hl.1
    · intro t f hff
      have := SMap.mem_of_find? hff
      obtain ⟨q, hq, he⟩ := List.mem_map.mp this
      simp only [Prod.mk.injEq] at he
      obtain ⟨rfl, rfl⟩ := he
      exact hl.2 q.1 q.2 (SMap.find?_of_mem hl.1 hq)

/-- The factors are proportional to the weight. -/
theorem getFactors_weight {e : Element K} (hc : CacheTrue e) {x w : K} {fs : SMap Str (Factor K)}
    (h : e.getFactors x w = .ok fs) (c : K) :
    e.getFactors x (c * w) = .ok (fs.map (fun l => (l.1, { l.2 with factor := c * l.2.factor, rate := c * l.2.rate }))) := by
  rw [(cacheTrue_transparent hc x w).2] at h
  rw [(cacheTrue_transparent hc x (c * w)).2]
  simp only [getFactors, Bool.false_eq_true, if_false] at h ⊢
  unfold computeFactors at h ⊢
  obtain ⟨vac, h1, h⟩ := Outcome.bind_eq_ok.mp h
  obtain ⟨lines, h2, h⟩ := Outcome.bind_eq_ok.mp h
  simp only [h1, h2, Outcome.ok_bind]
  split at h
  · rename_i hl
    cases h
    simp [hl]
  · rename_i hl
    obtain ⟨m, h3, h⟩ := Outcome.bind_eq_ok.mp h
    simp only [Outcome.pure_eq, Outcome.ok.injEq] at h
    subst h
    rw [if_neg hl, h3]
    simp only [Outcome.ok_bind, Outcome.pure_eq, Outcome.ok.injEq, List.map_map]
    apply List.map_congr_left
    intro l _
    simp only [Function.comp, Prod.mk.injEq, Factor.mk.injEq, true_and]
    constructor <;> ring

end factors

end Element
end Fisx
