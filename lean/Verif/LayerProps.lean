import Verif.Layer

/-!
# Properties of `Layer`: C08, C09
-/

set_option linter.unusedSectionVars false

namespace Fisx.Layer

/-! ## C08: transmissions (over the reals) -/

/-- The layer as the beam sees it at normal incidence or at an angle with a positive sine. -/
noncomputable def path (l : Layer ℝ) (angle : ℝ) : ℝ :=
  if angle = 90 then l.density * l.thickness
  else l.density * l.thickness / Real.sin (|angle| * Real.pi / 180)

theorem massThickness_eq (l : Layer ℝ) (angle : ℝ)
    (hs : 0 < Real.sin (|angle| * Real.pi / 180)) :
    l.massThickness angle = .fin (path l angle) := by
  unfold massThickness path
  split
  · rfl
  · by_cases h : angle < 0
    · rw [abs_of_neg h] at hs ⊢
      simp only [h, if_true, ne_of_gt hs, if_false]
    · rw [abs_of_nonneg (not_lt.1 h)] at hs ⊢
      simp only [h, if_false, ne_of_gt hs]

theorem path_pos (l : Layer ℝ) (angle : ℝ) (hd : 0 < l.density) (ht : 0 < l.thickness)
    (hs : 0 < Real.sin (|angle| * Real.pi / 180)) : 0 < path l angle := by
  unfold path
  split
  · exact mul_pos hd ht
  · exact div_pos (mul_pos hd ht) hs

theorem getTransmission_eq (l : Layer ℝ) (mu angle : ℝ) (hd : 0 < l.density) (ht : 0 < l.thickness)
    (hs : 0 < Real.sin (|angle| * Real.pi / 180)) :
    l.getTransmission (.ok mu) angle
      = .ok (.fin ((1 - l.funnyFactor) + l.funnyFactor * Real.exp (-(path l angle * mu)))) := by
  have hp := path_pos l angle hd ht hs
  simp only [getTransmission, Outcome.ok_bind, massThickness_eq l angle hs, nonPositive,
    not_le.2 hp, decide_false, Bool.false_eq_true, if_false, Outcome.pure_eq, transmissionOf]

/-- Property C08, range: positive density and thickness, an angle with positive sine, non-negative
attenuation, factor in [0,1]: the answer is a number in (0,1] (0 only allowed in the limit), strictly below one when
attenuation and factor are positive. -/
theorem C08_range (l : Layer ℝ) (mu angle : ℝ) (hd : 0 < l.density) (ht : 0 < l.thickness)
    (hs : 0 < Real.sin (|angle| * Real.pi / 180)) (hmu : 0 ≤ mu)
    (hf0 : 0 ≤ l.funnyFactor) (hf1 : l.funnyFactor ≤ 1) :
    ∃ T, l.getTransmission (.ok mu) angle = .ok (.fin T) ∧ 0 < T ∧ T ≤ 1 ∧
      (0 < mu → 0 < l.funnyFactor → T < 1) := by
  refine ⟨_, getTransmission_eq l mu angle hd ht hs, ?_, ?_, ?_⟩
  · have h1 := Real.exp_pos (-(path l angle * mu))
    rcases lt_or_eq_of_le hf1 with h | h
    · nlinarith [mul_nonneg hf0 (le_of_lt h1)]
    · rw [h]; linarith
  · have h1 : Real.exp (-(path l angle * mu)) ≤ 1 := by
      rw [Real.exp_le_one_iff]
      have := mul_nonneg (le_of_lt (path_pos l angle hd ht hs)) hmu
      linarith
    nlinarith
  · intro hm hf
    have h1 : Real.exp (-(path l angle * mu)) < 1 := by
      rw [Real.exp_lt_one_iff]
      have := mul_pos (path_pos l angle hd ht hs) hm
      linarith
    nlinarith

/-- Property C08, monotonicity: a layer with at least the density-thickness product, the attenuation and the
factor of another one, at the same angle, transmits at most as much. -/
theorem C08_monotone (l l' : Layer ℝ) (mu mu' angle : ℝ)
    (hd : 0 < l.density) (ht : 0 < l.thickness) (hd' : 0 < l'.density) (ht' : 0 < l'.thickness)
    (hs : 0 < Real.sin (|angle| * Real.pi / 180)) (hmu : 0 ≤ mu) (hmu' : mu ≤ mu')
    (hf0 : 0 ≤ l.funnyFactor) (hf : l.funnyFactor ≤ l'.funnyFactor)
    (hden : l.density ≤ l'.density) (hthi : l.thickness ≤ l'.thickness) :
    ∃ T T', l.getTransmission (.ok mu) angle = .ok (.fin T) ∧
      l'.getTransmission (.ok mu') angle = .ok (.fin T') ∧ T' ≤ T := by
  refine ⟨_, _, getTransmission_eq l mu angle hd ht hs, getTransmission_eq l' mu' angle hd' ht' hs, ?_⟩
  have hpath : path l angle ≤ path l' angle := by
    have : l.density * l.thickness ≤ l'.density * l'.thickness :=
      mul_le_mul hden hthi (le_of_lt ht) (le_of_lt hd')
    unfold path
    split
    · exact this
    · exact div_le_div_of_nonneg_right this (le_of_lt hs)
  have hpp := path_pos l angle hd ht hs
  have h1 : Real.exp (-(path l' angle * mu')) ≤ Real.exp (-(path l angle * mu)) := by
    apply Real.exp_le_exp.2
    have := mul_le_mul hpath hmu' hmu (le_trans (le_of_lt hpp) hpath)
    linarith
  have h2 : Real.exp (-(path l angle * mu)) ≤ 1 := by
    rw [Real.exp_le_one_iff]
    have := mul_nonneg (le_of_lt hpp) hmu
    linarith
  have h3 := Real.exp_pos (-(path l' angle * mu'))
  nlinarith

/-- Property C08, stacking: with factor 1 a layer of thickness `t1 + t2` transmits the product of the
transmissions of two layers of the same density and material with thicknesses `t1` and `t2`. -/
theorem C08_stacking (name : String) (d t1 t2 mu angle : ℝ) (hd : 0 < d) (h1 : 0 < t1) (h2 : 0 < t2)
    (hs : 0 < Real.sin (|angle| * Real.pi / 180)) :
    ∃ T1 T2, (new name d t1 1).getTransmission (.ok mu) angle = .ok (.fin T1) ∧
      (new name d t2 1).getTransmission (.ok mu) angle = .ok (.fin T2) ∧
      (new name d (t1 + t2) 1).getTransmission (.ok mu) angle = .ok (.fin (T1 * T2)) := by
  refine ⟨_, _, getTransmission_eq _ mu angle hd h1 hs, getTransmission_eq _ mu angle hd h2 hs, ?_⟩
  rw [getTransmission_eq _ mu angle hd (add_pos h1 h2) hs]
  simp only [new, sub_self, zero_add, one_mul, ← Real.exp_add]
  congr 3
  unfold path
  simp only
  split <;> ring

/-- Property C08, rejection: at normal incidence the call throws exactly when density times thickness is
not positive; nothing depends on the library then. -/
theorem C08_rejects (l : Layer ℝ) (mu : ℝ) :
    l.getTransmission (.ok mu) 90 = .throw .runtimeError ↔ l.density * l.thickness ≤ 0 := by
  simp only [getTransmission, Outcome.ok_bind, massThickness, if_true, nonPositive]
  by_cases h : l.density * l.thickness ≤ 0
  · simp [h]
  · simp [h]

/-- Property C08, overloads: if the library answers `mus` for the vector of energies and the `i`-th of them
for the `i`-th energy, the vector overload gives the scalar answers. -/
theorem C08_overloads_agree (l : Layer ℝ) (mus : List ℝ) (angle : ℝ) (ts : List Ext)
    (h : l.getTransmissions (.ok mus) angle = .ok ts) :
    ts.length = mus.length ∧
    ∀ i (hi : i < mus.length) (hi' : i < ts.length), l.getTransmission (.ok mus[i]) angle = .ok ts[i] := by
  unfold getTransmissions at h
  by_cases hn : nonPositive (l.massThickness angle) = true
  · simp [hn] at h
  · simp only [hn] at h
    simp only [Outcome.ok_bind, Outcome.pure_eq, Bool.false_eq_true, if_false, Outcome.ok.injEq] at h
    subst h
    refine ⟨by simp, fun i hi hi' => ?_⟩
    simp [getTransmission, hn]

/-- C08 applies to a concrete layer at normal incidence and at -45 degrees (sine of the absolute angle). -/
example : ∃ T, (new "Si" 2 (1/10) 1 : Layer ℝ).getTransmission (.ok 5) 90 = .ok (.fin T) ∧ 0 < T ∧ T ≤ 1
    ∧ (0 < (5:ℝ) → 0 < (new "Si" 2 (1/10) 1 : Layer ℝ).funnyFactor → T < 1) := by
  apply C08_range <;> norm_num [new]
  apply Real.sin_pos_of_pos_of_lt_pi <;> nlinarith [Real.pi_pos]

/-- Grazing angle zero is outside the hypotheses of `C08_range`: the code divides by zero and, for positive
attenuation, answers `1 - factor`. -/
theorem C08_zero_angle (l : Layer ℝ) (mu : ℝ) (hd : 0 < l.density) (ht : 0 < l.thickness) (hmu : 0 < mu) :
    l.getTransmission (.ok mu) 0 = .ok (.fin (1 - l.funnyFactor)) := by
  have hp := mul_pos hd ht
  simp [getTransmission, massThickness, nonPositive, transmissionOf, hp, hmu]

/-! ## C09: resolution of density and thickness -/

variable {K : Type} [Field K] [LinearOrder K] [IsStrictOrderedRing K]

/-- The call changes the thickness explicitly. -/
def SetsThickness : Op K → Prop
  | .setThickness v => 0 < v
  | _ => False

/-- The call changes the density explicitly. -/
def SetsDensity : Op K → Prop
  | .setDensity v => 0 < v
  | _ => False

/-- The call supplies a material with defaults. -/
def SuppliesMaterial : Op K → Prop
  | .setMaterial _ => True
  | _ => False

/-- Every material a user can build has positive defaults (`C02_valid_in_every_history`). -/
def OpWF : Op K → Prop
  | .setMaterial m => 0 < m.defaultDensity ∧ 0 < m.defaultThickness
  | _ => True

theorem step_thickness_pos (l : Layer K) (op : Op K) (h : 0 < l.thickness) (hn : ¬ SetsThickness op) :
    (l.step op).2.thickness = l.thickness := by
  cases op with
  | setDensity v => simp only [step, setDensity]; split <;> rfl
  | setThickness v =>
    simp only [SetsThickness, not_lt] at hn
    simp [step, setThickness, hn]
  | setMaterialName n => rfl
  | setMaterial m => simp [step, setMaterial, not_le.2 h]

theorem run_thickness_pos (l : Layer K) (ops : List (Op K)) (h : 0 < l.thickness)
    (hn : ∀ op ∈ ops, ¬ SetsThickness op) : (l.run ops).thickness = l.thickness := by
  induction ops generalizing l with
  | nil => rfl
  | cons op r ih =>
    have h1 := step_thickness_pos l op h (hn op (by simp))
    have h2 := ih (l.step op).2 (by rw [h1]; exact h) (fun o ho => hn o (List.mem_cons_of_mem _ ho))
    unfold run at h2 ⊢
    rw [List.foldl_cons, h2, h1]

theorem step_density_nonneg (l : Layer K) (op : Op K) (h : 0 ≤ l.density) (hn : ¬ SetsDensity op) :
    (l.step op).2.density = l.density := by
  cases op with
  | setDensity v =>
    simp only [SetsDensity, not_lt] at hn
    simp [step, setDensity, hn]
  | setThickness v => simp only [step, setThickness]; split <;> rfl
  | setMaterialName n => rfl
  | setMaterial m => simp [step, setMaterial, not_lt.2 h]

theorem run_density_nonneg (l : Layer K) (ops : List (Op K)) (h : 0 ≤ l.density)
    (hn : ∀ op ∈ ops, ¬ SetsDensity op) : (l.run ops).density = l.density := by
  induction ops generalizing l with
  | nil => rfl
  | cons op r ih =>
    have h1 := step_density_nonneg l op h (hn op (by simp))
    have h2 := ih (l.step op).2 (by rw [h1]; exact h) (fun o ho => hn o (List.mem_cons_of_mem _ ho))
    unfold run at h2 ⊢
    rw [List.foldl_cons, h2, h1]

theorem run_append (l : Layer K) (a b : List (Op K)) : l.run (a ++ b) = (l.run a).run b := by
  simp [run, List.foldl_append]

/-- Property C09, explicit values win: the last accepted `setDensity`/`setThickness` is what the layer reports,
whatever is called before and whatever materials, names or rejected values come after. -/
theorem C09_explicit_wins (l : Layer K) (before after : List (Op K)) (v : K) (hv : 0 < v) :
    ((∀ op ∈ after, ¬ SetsThickness op) → (l.run (before ++ .setThickness v :: after)).thickness = v) ∧
    ((∀ op ∈ after, ¬ SetsDensity op) → (l.run (before ++ .setDensity v :: after)).density = v) := by
  constructor
  · intro h
    rw [run_append]
    have : (l.run before).run (.setThickness v :: after) = ({ (l.run before) with thickness := v } : Layer K).run after := by
      simp [run, step, setThickness, not_le.2 hv]
    rw [this, run_thickness_pos _ _ hv h]
  · intro h
    rw [run_append]
    have : (l.run before).run (.setDensity v :: after) = ({ (l.run before) with density := v } : Layer K).run after := by
      simp [run, step, setDensity, not_le.2 hv]
    rw [this, run_density_nonneg _ _ (le_of_lt hv) h]

/-- Property C09, positive constructor values win over any material. -/
theorem C09_constructor_wins (name : String) (d t f : K) (ops : List (Op K)) :
    (0 < t → (∀ op ∈ ops, ¬ SetsThickness op) → ((new name d t f).run ops).thickness = t) ∧
    (0 < d → (∀ op ∈ ops, ¬ SetsDensity op) → ((new name d t f).run ops).density = d) :=
  ⟨fun h hn => run_thickness_pos (new name d t f) ops h hn,
   fun h hn => run_density_nonneg (new name d t f) ops (le_of_lt h) hn⟩

theorem run_unset (l : Layer K) (ops : List (Op K)) (hm : ∀ op ∈ ops, ¬ SuppliesMaterial op)
    (ht : ∀ op ∈ ops, ¬ SetsThickness op) (hd : ∀ op ∈ ops, ¬ SetsDensity op) :
    (l.run ops).thickness = l.thickness ∧ (l.run ops).density = l.density := by
  induction ops generalizing l with
  | nil => exact ⟨rfl, rfl⟩
  | cons op r ih =>
    have hstep : (l.step op).2.thickness = l.thickness ∧ (l.step op).2.density = l.density := by
      cases op with
      | setDensity v =>
        have := hd (.setDensity v) (by simp)
        simp only [SetsDensity, not_lt] at this
        simp [step, setDensity, this]
      | setThickness v =>
        have := ht (.setThickness v) (by simp)
        simp only [SetsThickness, not_lt] at this
        simp [step, setThickness, this]
      | setMaterialName n => exact ⟨rfl, rfl⟩
      | setMaterial m => exact absurd trivial (hm (.setMaterial m) (by simp))
    have := ih (l.step op).2 (fun o ho => hm o (List.mem_cons_of_mem _ ho))
      (fun o ho => ht o (List.mem_cons_of_mem _ ho)) (fun o ho => hd o (List.mem_cons_of_mem _ ho))
    unfold run at this ⊢
    rw [List.foldl_cons, this.1, this.2]
    exact hstep

/-- Property C86, defaults: a layer built without thickness takes the default of the first
material it receives, and keeps it. For the density this only happens with a *negative* constructor
value (see `C86_density_violated`), hence `_partial`. -/
theorem C86_thickness_partial (name : String) (d t f : K) (before after : List (Op K)) (m : Material K)
    (hm : 0 < m.defaultDensity ∧ 0 < m.defaultThickness)
    (hb : ∀ op ∈ before, ¬ SuppliesMaterial op)
    (hnt : ∀ op ∈ before ++ after, ¬ SetsThickness op) (hnd : ∀ op ∈ before ++ after, ¬ SetsDensity op) :
    (t ≤ 0 → ((new name d t f).run (before ++ .setMaterial m :: after)).thickness = m.defaultThickness) ∧
    (d < 0 → ((new name d t f).run (before ++ .setMaterial m :: after)).density = m.defaultDensity) := by
  have hu := run_unset (new name d t f) before hb (fun o ho => hnt o (by simp [ho]))
    (fun o ho => hnd o (by simp [ho]))
  rw [run_append]
  set l := (new name d t f).run before
  have hcons : l.run (.setMaterial m :: after) = (l.setMaterial m).run after := rfl
  rw [hcons]
  constructor
  · intro ht
    have h1 : (l.setMaterial m).thickness = m.defaultThickness := by
      have : l.thickness ≤ 0 := by rw [hu.1]; exact ht
      simp [setMaterial, this]
    rw [run_thickness_pos _ _ (by rw [h1]; exact hm.2) (fun o ho => hnt o (by simp [ho])), h1]
  · intro hd
    have h1 : (l.setMaterial m).density = m.defaultDensity := by
      have : l.density < 0 := by rw [hu.2]; exact hd
      simp [setMaterial, this]
    rw [run_density_nonneg _ _ (by rw [h1]; exact le_of_lt hm.1) (fun o ho => hnd o (by simp [ho])), h1]

/-- C86 is false for the density: a layer built with the default arguments (density 0) that receives a
material of density 3 still reports density 0, so that its transmission is rejected. -/
theorem C86_density_violated :
    ∃ m : Material ℚ, 0 < m.defaultDensity ∧
      ((new "a" 0 0 1 : Layer ℚ).run [.setMaterial m]).density = 0 ∧
      ((new "a" 0 0 1 : Layer ℚ).run [.setMaterial m]).thickness = m.defaultThickness := by
  refine ⟨(Material.init Material.new "M" 3 (1/2) "").2, ?_⟩
  decide +kernel

example : ∃ m : Material ℚ, (0 < m.defaultDensity ∧ 0 < m.defaultThickness) ∧
    ((new "a" (-1) 0 1 : Layer ℚ).run [.setMaterialName "x", .setMaterial m, .setDensity (-2)]).density
      = m.defaultDensity := by
  refine ⟨(Material.init Material.new "M" 3 (1/2) "").2, ?_⟩
  decide +kernel

end Fisx.Layer
