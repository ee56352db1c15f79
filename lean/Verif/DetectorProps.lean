import Verif.Detector

/-!
# Properties of `Detector`: C10, C11
-/

set_option linter.unusedSectionVars false

namespace Fisx.Detector

/-! ## C10 -/

/-- Property C10: area and diameter are consistent in both directions, and zero or negative input behaves as
documented. -/
theorem C10_area_diameter {R : Type} (d : Detector ℝ R) :
    (∀ a, 0 ≤ a → (d.setActiveArea a).1 = .ok () ∧ (d.setActiveArea a).2.getActiveArea = a ∧
      0 ≤ (d.setActiveArea a).2.diameter) ∧
    (∀ v, 0 ≤ v → (d.setDiameter v).1 = .ok () ∧ (d.setDiameter v).2.getActiveArea = Real.pi * v ^ 2 / 4 ∧
      (d.setDiameter v).2.diameter = v ∧
      ((d.setDiameter v).2.setActiveArea ((d.setDiameter v).2.getActiveArea)).2.diameter = v) ∧
    (∀ a, a < 0 → d.setActiveArea a = (.throw .invalidArgument, d)) ∧
    (∀ v, v < 0 → d.setDiameter v = (.throw .invalidArgument, d)) ∧
    (∀ v, v ≤ 0 → d.setDistance v = (.throw .invalidArgument, d)) ∧
    (∀ v, 0 < v → (d.setDistance v).1 = .ok () ∧ (d.setDistance v).2.distance = v) := by
  have hpi := Real.pi_pos
  refine ⟨?_, ?_, ?_, ?_, ?_, ?_⟩
  · intro a ha
    have h1 : ¬ a < 0 := not_lt.2 ha
    simp only [setActiveArea, h1, if_false, getActiveArea, true_and]
    refine ⟨?_, mul_nonneg (by norm_num) (Real.sqrt_nonneg _)⟩
    have h2 := Real.mul_self_sqrt (div_nonneg ha (le_of_lt hpi))
    have : 2 * Real.sqrt (a / Real.pi) * (2 * Real.sqrt (a / Real.pi)) = 4 * (a / Real.pi) := by
      linear_combination 4 * h2
    rw [this]
    field_simp
  · intro v hv
    have h1 : ¬ v < 0 := not_lt.2 hv
    simp only [setDiameter, h1, if_false, getActiveArea, true_and]
    refine ⟨by ring, ?_⟩
    have h2 : ¬ (1/4 * Real.pi * (v * v) < 0) := not_lt.2 (by positivity)
    simp only [setActiveArea, h2, if_false]
    have : 1/4 * Real.pi * (v * v) / Real.pi = (v/2) ^ 2 := by field_simp; ring
    rw [this, Real.sqrt_sq (by linarith)]
    ring
  · intro a ha; simp [setActiveArea, ha]
  · intro v hv; simp [setDiameter, hv]
  · intro v hv; simp [setDistance, hv]
  · intro v hv; simp [setDistance, not_le.2 hv]

variable {K R : Type} [Field K] [LinearOrder K] [IsStrictOrderedRing K]

/-- Property C10, histories: whatever is called, the diameter is never negative and the distance is always
positive. -/
theorem C10_geometry_in_every_history (lhsFirst : Bool) (dflt : R)
    (lib : String → EscapeParams K → K → Outcome R) (name : String) (den thi fun_ : K) (ops : List (Op K)) :
    let d := (new name den thi fun_ : Detector K R).run lhsFirst dflt lib ops
    0 ≤ d.diameter ∧ 0 < d.distance := by
  have key : ∀ d : Detector K R, (0 ≤ d.diameter ∧ 0 < d.distance) →
      0 ≤ (d.run lhsFirst dflt lib ops).diameter ∧ 0 < (d.run lhsFirst dflt lib ops).distance := by
    induction ops with
    | nil => intro d h; exact h
    | cons op r ih =>
      intro d h
      apply ih
      cases op with
      | setDiameter v =>
        simp only [step, setDiameter]
        split
        · exact h
        · rename_i hv; exact ⟨not_lt.1 hv, h.2⟩
      | setDistance v =>
        simp only [step, setDistance]
        split
        · exact h
        · rename_i hv; exact ⟨h.1, not_le.1 hv⟩
      | getEscape e label update =>
        simp only [step, getEscape]
        repeat' split
        all_goals exact h
      | _ => exact h
  exact key _ ⟨le_refl _, by simp [new]⟩

/-! ## C11 -/

/-- What C11 promises: the answer a detector without any cache would give now. -/
def fresh (lib : String → EscapeParams K → K → Outcome R) (d : Detector K R) (energy : K)
    (label : String) : Outcome R := lib label d.params energy

/-- Every cached answer is the one the library gives for the current configuration. -/
def Coherent (lib : String → EscapeParams K → K → Outcome R) (d : Detector K R) : Prop :=
  ∀ label c, d.cache.find? label = some c → ∀ e r, c.find? e = some r → lib label d.params e = .ok r

theorem getEscape_correct (dflt : R) (lib : String → EscapeParams K → K → Outcome R) (d : Detector K R)
    (h : Coherent lib d) (e : K) (label : String) (update : Bool) :
    (d.getEscape false dflt (lib label) e label update).1 = fresh lib d e label ∧
    Coherent lib (d.getEscape false dflt (lib label) e label update).2 ∧
    (d.getEscape false dflt (lib label) e label update).2.params = d.params := by
  unfold getEscape
  by_cases hl : label = ""
  · rw [if_neg (not_not.2 hl)]; exact ⟨rfl, h, rfl⟩
  rw [if_pos hl]
  -- the detector after the optional clearing
  have hd' : ∀ d' : Detector K R, d' = (if update then { d with cache := [] } else d) →
      d'.params = d.params ∧ Coherent lib d' := by
    intro d' hd'
    subst hd'
    cases update
    · exact ⟨rfl, h⟩
    · refine ⟨rfl, ?_⟩
      intro label c hc
      simp at hc
  generalize hdd : (if update then { d with cache := [] } else d) = d'
  obtain ⟨hp, hcoh⟩ := hd' d' hdd.symm
  simp only
  cases hhit : (d'.cache.find? label).bind (fun c => c.find? e) with
  | some r =>
    simp only
    obtain ⟨c, hc1, hc2⟩ := Option.bind_eq_some_iff.1 hhit
    refine ⟨?_, hcoh, hp⟩
    have := hcoh label c hc1 e r hc2
    rw [hp] at this
    exact this.symm
  | none =>
    simp only
    cases hesc : lib label d'.params e with
    | ok r =>
      simp only
      refine ⟨?_, ?_, hp⟩
      · unfold fresh; rw [← hp, hesc]
      · intro label' c' hc' e' r' hr'
        simp only [SMap.find?_insert] at hc'
        by_cases hll : label = label'
        · subst hll
          simp only [if_true, Option.some.injEq] at hc'
          subst hc'
          rw [SMap.find?_insert] at hr'
          by_cases hee : e = e'
          · subst hee
            simp only [if_true, Option.some.injEq] at hr'
            subst hr'
            exact hesc
          · rw [if_neg hee] at hr'
            cases hcl : d'.cache.find? label with
            | none => rw [hcl] at hr'; simp at hr'
            | some c =>
              rw [hcl] at hr'
              exact hcoh label c hcl e' r' hr'
        · rw [if_neg hll] at hc'
          exact hcoh label' c' hc' e' r' hr'
    | throw x => exact ⟨by unfold fresh; rw [← hp, hesc], hcoh, hp⟩
    | ub x => exact ⟨by unfold fresh; rw [← hp, hesc], hcoh, hp⟩
    | diverge => exact ⟨by unfold fresh; rw [← hp, hesc], hcoh, hp⟩

theorem step_coherent (dflt : R) (lib : String → EscapeParams K → K → Outcome R) (d : Detector K R)
    (h : Coherent lib d) (op : Op K) : Coherent lib (d.step false dflt lib op).2 := by
  have hnil : ∀ d' : Detector K R, d'.cache = [] → Coherent lib d' := by
    intro d' hd' label c hc
    rw [hd'] at hc
    simp at hc
  cases op with
  | setMaterialName n => exact hnil _ rfl
  | setMaterial m => exact hnil _ rfl
  | setMinimumEscapePeakEnergy v => exact hnil _ rfl
  | setMinimumEscapePeakIntensity v => exact hnil _ rfl
  | setMaximumNumberOfEscapePeaks n => exact hnil _ rfl
  | clearEscapePeakCache => exact hnil _ rfl
  | setDiameter v => simp only [step, setDiameter]; split <;> exact h
  | setDistance v => simp only [step, setDistance]; split <;> exact h
  | setDensity v => simp only [step, Layer.setDensity]; split <;> exact h
  | setThickness v => simp only [step, Layer.setThickness]; split <;> exact h
  | getEscape e label update => exact (getEscape_correct dflt lib d h e label update).2.1

/-- Property C11. For libraries identified by their labels (as the documentation asks), after any
history of configuration changes and queries, `getEscape` answers what the library answers for the
*current* material and thresholds - including the exceptions - whatever the label and the update flag.
This is for the C++17 evaluation order of assignments. -/
theorem C11_escape_cache_transparent (dflt : R) (lib : String → EscapeParams K → K → Outcome R)
    (name : String) (den thi fun_ : K) (ops : List (Op K)) (e : K) (label : String) (update : Bool) :
    let d := (new name den thi fun_ : Detector K R).run false dflt lib ops
    (d.getEscape false dflt (lib label) e label update).1 = lib label d.params e := by
  intro d
  have hcoh : Coherent lib d := by
    have : ∀ d0 : Detector K R, Coherent lib d0 → Coherent lib (d0.run false dflt lib ops) := by
      induction ops with
      | nil => intro d0 h; exact h
      | cons op r ih => intro d0 h; exact ih _ (step_coherent dflt lib d0 h op)
    apply this
    intro l c hc
    simp [new] at hc
  exact (getEscape_correct dflt lib d hcoh e label update).1

/-- The same for any evaluation order when the library never throws: part of C87 valid before C++17. -/
theorem C87_any_order_partial (lhsFirst : Bool) (dflt : R) (lib : String → EscapeParams K → K → Outcome R)
    (hlib : ∀ l p e x, lib l p e ≠ .throw x)
    (name : String) (den thi fun_ : K) (ops : List (Op K)) (e : K) (label : String) (update : Bool) :
    let d := (new name den thi fun_ : Detector K R).run lhsFirst dflt lib ops
    (d.getEscape lhsFirst dflt (lib label) e label update).1 = lib label d.params e := by
  have hsame : ∀ (d : Detector K R) e label update,
      d.getEscape lhsFirst dflt (lib label) e label update
        = d.getEscape false dflt (lib label) e label update := by
    intro d e label update
    have hd : ∀ d' : Detector K R, ∀ x, lib label d'.params e ≠ .throw x := fun d' x => hlib _ _ _ x
    unfold getEscape
    split
    · simp only
      generalize (if update = true then { d with cache := [] } else d) = d'
      split
      · rfl
      · cases hx : lib label d'.params e with
        | throw x => exact absurd hx (hd d' x)
        | _ => rfl
    · rfl
  have hrun : ∀ d : Detector K R, d.run lhsFirst dflt lib ops = d.run false dflt lib ops := by
    intro d
    unfold run
    congr 1
    funext d op
    cases op <;> simp only [step]
    rw [hsame]
  intro d
  rw [hsame]
  have := C11_escape_cache_transparent dflt lib name den thi fun_ ops e label update
  simp only [← hrun] at this
  exact this

/-- With the left side evaluated first (allowed before C++17) C87 is false: after a query that throws, the
same query returns an empty answer as if there were no escape. -/
theorem C87_lhs_first_violated : ∃ (lib : String → EscapeParams ℚ → ℚ → Outcome (List ℚ)),
    let d := (new "unknown" 1 1 1 : Detector ℚ (List ℚ)).run true [] lib [.getEscape 5 "lib" false]
    lib "lib" d.params 5 = .throw .invalidArgument ∧
    (d.getEscape true [] (lib "lib") 5 "lib" false).1 = .ok [] := by
  refine ⟨fun _ _ _ => .throw .invalidArgument, rfl, ?_⟩
  decide +kernel

/-- Non-vacuity of C11: a history with a cached query, a threshold change and the same query again,
for a library whose answer depends on the threshold. -/
example :
    let lib : String → EscapeParams ℚ → ℚ → Outcome (List ℚ) :=
      fun _ p e => .ok (if p.intensityThreshold < e then [e - 1] else [])
    let d := (new "Si" 1 1 1 : Detector ℚ (List ℚ)).run false [] lib
      [.getEscape 5 "lib" false, .getEscape 6 "lib" false]
    d.cache = [("lib", [(5, [4]), (6, [5])])] ∧
    (((d.step false [] lib (.setMinimumEscapePeakIntensity 10)).2).getEscape false [] (lib "lib") 5 "lib" false).1
      = .ok [] := by
  intro lib d
  constructor <;> decide +kernel

end Fisx.Detector
