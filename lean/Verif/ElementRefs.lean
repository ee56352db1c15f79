import Verif.ElementCache

/-!
# References handed out by `fisx::Element` (/repo/src/fisx_element.cpp:199-203, 1044-1117, 1449-1460)

Several getters of `fisx::Element` return a `const std::map &`. A reference is modelled by what it refers to: a map of a
subshell of the element (a map kept by the node of `shellInstance`), or a map of a local variable of the getter, dead when
the getter returns. Nodes of `shellInstance` live until the map is cleared, which only `setBindingEnergies` does
(fisx_element.cpp:151): the number of clears is the generation of the nodes.
-/

set_option linter.unusedSectionVars false

namespace Fisx
namespace Refs

variable {K : Type} [Field K] [LinearOrder K] [Trans K]

/-- The maps of a subshell, fisx_shell.h:123-135. -/
inductive MapField
  | radiative | nonradiative | fluorescence | auger
deriving DecidableEq

/-- Value of a map of a subshell (fisx_shell.cpp:301-324, the getters). -/
def MapField.get (s : Shell K) : MapField → SMap Str K
  | .radiative => s.radiative
  | .nonradiative => s.nonradiative
  | .fluorescence => s.fluorescence
  | .auger => s.auger

/-- What a returned reference designates: a member of the shell kept under a name by the element, or a member of a
local copy of a shell. -/
inductive Ref
  | ofElement (generation : Nat) (sub : Str) (field : MapField)
  | ofLocal
deriving DecidableEq

/-- An element with the number of times its shells were destroyed. -/
structure Live (K : Type) where
  element : Element K
  generation : Nat

/-- One call of the mutating API. `setBindingEnergies` begins with `shellInstance.clear()` (fisx_element.cpp:151). The
other setters modify the shells in place (`this->shellInstance[subshell].set...`). -/
def step (l : Live K) (op : Element.Op K) : Live K :=
  { element := (l.element.step op).2,
    generation := match op with
      | .setBindingEnergies _ => l.generation + 1
      | _ => l.generation }

/-- A history of calls. -/
def run (l : Live K) (ops : List (Element.Op K)) : Live K := ops.foldl step l

/-- Reading the map behind a reference. -/
def read (l : Live K) : Ref → Outcome (SMap Str K)
  | .ofLocal => .ub .dangling
  | .ofElement g sub f =>
    if g = l.generation then
      match l.element.shells.find? sub with
      | some s => .ok (f.get s)
      | none => .ub .dangling
    else .ub .dangling

/-- fisx_element.cpp:1449-1460, `getShell`: a reference to the shell kept by the element. -/
def getShell (l : Live K) (sub : Str) : Outcome (Nat × Str) :=
  match l.element.shells.find? sub with
  | none => .throw .invalidArgument
  | some _ => .ok (l.generation, sub)

/-- fisx_element.cpp:1006-1017, `getRadiativeTransitions`. -/
def getRadiativeTransitions (l : Live K) (sub : Str) : Outcome Ref :=
  match l.element.shells.find? sub with
  | none => .throw .invalidArgument
  | some _ => .ok (.ofElement l.generation sub .radiative)

/-- fisx_element.cpp:1053-1066, `getNonradiativeTransitions`. -/
def getNonradiativeTransitions (l : Live K) (sub : Str) : Outcome Ref :=
  match l.element.shells.find? sub with
  | none => .throw .invalidArgument
  | some _ => .ok (.ofElement l.generation sub .nonradiative)

/-- fisx_element.cpp:1082-1086, `getFluorescenceRatios`: `shell` is a reference. -/
def getFluorescenceRatios (l : Live K) (sub : Str) : Outcome Ref := do
  let s ← getShell l sub
  return .ofElement s.1 s.2 .fluorescence

/-- fisx_element.cpp:1114-1117, `getXRayLines`. -/
def getXRayLines (l : Live K) (sub : Str) : Outcome Ref := getFluorescenceRatios l sub

/-- fisx_element.cpp:1088-1093, `getAugerRatios`: `shell` is a local copy. -/
def getAugerRatios (l : Live K) (sub : Str) : Outcome Ref := do
  let _ ← getShell l sub
  return .ofLocal

/-- fisx_element.cpp:1095-1100, `getCosterKronigRatios`: `shell` is a local copy. The referenced map has another type
(a map of maps); only its lifetime is modelled. -/
def getCosterKronigRatios (l : Live K) (sub : Str) : Outcome Ref := do
  let _ ← getShell l sub
  return .ofLocal

/-! ## Properties -/

/-- Specification: the calls that keep the shells alive. -/
def KeepsShells : Element.Op K → Prop
  | .setBindingEnergies _ => False
  | _ => True

theorem find_insert_some {V : Type} {m : SMap Str V} {k k' : Str} {v w : V} (h : m.find? k = some w) :
    ∃ w', (m.insert k' v).find? k = some w' := by
  rw [SMap.find?_insert]
  by_cases hk : k = k'
  · exact ⟨v, by simp [hk]⟩
  · exact ⟨w, by rw [if_neg (fun h => hk h.symm), h]⟩

theorem fillCascade_shells (e : Element K) : e.fillCascadeCache.2.shells = e.shells := by
  unfold Element.fillCascadeCache
  dsimp only
  split <;> rfl

theorem setCascade_shells (e : Element K) (f : Bool) : (e.setCascadeCacheEnabled f).2.shells = e.shells := by
  unfold Element.setCascadeCacheEnabled
  dsimp only
  split
  · rfl
  · split
    · split
      · exact fillCascade_shells e
      · exact fillCascade_shells e
    · rfl

theorem fillLoop_shells (l : List K) : ∀ e : Element K, (Element.fillLoop e l).2.shells = e.shells := by
  induction l with
  | nil => intro e; rfl
  | cons x t ih =>
    intro e
    unfold Element.fillLoop
    cases Element.getMu e x with
    | ok m =>
      dsimp only
      cases Element.getFactors { e with muCache := e.muCache.insert x m } x 1 with
      | ok f => dsimp only; rw [ih]
      | throw _ => rfl
      | ub _ => rfl
      | diverge => rfl
    | throw _ => rfl
    | ub _ => rfl
    | diverge => rfl

theorem updateLoop_shells (l : List K) : ∀ e : Element K, (Element.updateLoop e l).2.shells = e.shells := by
  induction l with
  | nil => intro e; rfl
  | cons x t ih =>
    intro e
    unfold Element.updateLoop
    dsimp only
    split
    · have h1 : (if e.muCache.mem x then (Outcome.ok (), e)
        else match Element.getMu e x with
          | .ok m => (Outcome.ok (), { e with muCache := e.muCache.insert x m })
          | .throw t => (.throw t, e)
          | .ub u => (.ub u, e)
          | .diverge => (.diverge, e)).2.shells = e.shells := by
        split
        · rfl
        · split <;> rfl
      generalize (if e.muCache.mem x then (Outcome.ok (), e)
        else match Element.getMu e x with
          | .ok m => (Outcome.ok (), { e with muCache := e.muCache.insert x m })
          | .throw t => (.throw t, e)
          | .ub u => (.ub u, e)
          | .diverge => (.diverge, e)) = r at h1 ⊢
      split
      · split
        · rw [ih]; exact h1
        · split
          · rw [ih]; exact h1
          · exact h1
          · exact h1
          · exact h1
      · exact h1
    · exact ih e

/-- A shell survives every call but `setBindingEnergies`. -/
theorem step_keeps (e : Element K) (op : Element.Op K) (h : KeepsShells op) {sub : Str} {s : Shell K}
    (hs : e.shells.find? sub = some s) : ∃ s', (e.step op).2.shells.find? sub = some s' := by
  cases op with
  | setBindingEnergies b => exact absurd h id
  | setAtomicNumber z =>
    refine ⟨s, ?_⟩
    simp only [Element.step, Element.setAtomicNumber]
    split <;> exact hs
  | setMass en ph co cm pa =>
    refine ⟨s, ?_⟩
    simp only [Element.step]
    unfold Element.setMassAttenuationCoefficients
    repeat' (first | exact hs | split)
  | setPartial sh en v =>
    refine ⟨s, ?_⟩
    simp only [Element.step]
    unfold Element.setPartial
    repeat' (first | exact hs | split)
  | setRadiative sb l v =>
    simp only [Element.step, Element.setRadiative]
    split
    · exact find_insert_some hs
    all_goals exact ⟨s, hs⟩
  | setRadiativeMap sb m =>
    simp only [Element.step, Element.setRadiativeMap]
    split
    · split <;> exact find_insert_some hs
    all_goals exact ⟨s, hs⟩
  | setNonradiative sb l v =>
    simp only [Element.step, Element.setNonradiative]
    split
    · split <;> exact find_insert_some hs
    all_goals exact ⟨s, hs⟩
  | setNonradiativeMap sb m =>
    simp only [Element.step, Element.setNonradiativeMap, Element.setNonradiative]
    split
    · split <;> exact find_insert_some hs
    all_goals exact ⟨s, hs⟩
  | setShellConstants sb c =>
    simp only [Element.step, Element.setShellConstants]
    split
    · exact ⟨s, hs⟩
    · split <;> exact find_insert_some hs
  | setCascadeCacheEnabled f => exact ⟨s, by simp only [Element.step]; rw [setCascade_shells]; exact hs⟩
  | fillCascadeCache => exact ⟨s, by simp only [Element.step]; rw [fillCascade_shells]; exact hs⟩
  | emptyCascadeCache => exact ⟨s, hs⟩
  | setCacheEnabled f => exact ⟨s, hs⟩
  | clearCache => exact ⟨s, hs⟩
  | fillCache en =>
    exact ⟨s, by simp only [Element.step, Element.fillCache]; rw [fillLoop_shells]; exact hs⟩
  | updateCache en =>
    exact ⟨s, by simp only [Element.step, Element.updateCache]; rw [updateLoop_shells]; exact hs⟩

theorem run_element (ops : List (Element.Op K)) : ∀ l : Live K, (run l ops).element = l.element.run ops := by
  induction ops with
  | nil => intro l; rfl
  | cons op t ih => intro l; exact ih (step l op)

theorem run_generation (ops : List (Element.Op K)) (h : ∀ op ∈ ops, KeepsShells op) :
    ∀ l : Live K, (run l ops).generation = l.generation := by
  induction ops with
  | nil => intro l; rfl
  | cons op t ih =>
    intro l
    have := ih (fun o ho => h o (List.mem_cons_of_mem _ ho)) (step l op)
    refine this.trans ?_
    have ho := h op List.mem_cons_self
    cases op <;> first | rfl | exact absurd ho id

theorem run_keeps (ops : List (Element.Op K)) (h : ∀ op ∈ ops, KeepsShells op) :
    ∀ e : Element K, ∀ {sub : Str} {s : Shell K}, e.shells.find? sub = some s →
      ∃ s', (e.run ops).shells.find? sub = some s' := by
  induction ops with
  | nil => intro e sub s hs; exact ⟨s, hs⟩
  | cons op t ih =>
    intro e sub s hs
    obtain ⟨s', hs'⟩ := step_keeps e op (h op List.mem_cons_self) hs
    exact ih (fun o ho => h o (List.mem_cons_of_mem _ ho)) (e.step op).2 hs'

/-- Specification: `ref` designates the map `f` of the subshell `sub` of the element: read after any further calls that
keep the shells, it gives the map the subshell then has. -/
def Follows (l : Live K) (sub : Str) (f : MapField) (ref : Ref) : Prop :=
  ∀ ops : List (Element.Op K), (∀ op ∈ ops, KeepsShells op) →
    ∃ s, (l.element.run ops).shells.find? sub = some s ∧ read (run l ops) ref = .ok (f.get s)

theorem ofElement_follows (l : Live K) {sub : Str} {s : Shell K} (hs : l.element.shells.find? sub = some s)
    (f : MapField) : Follows l sub f (.ofElement l.generation sub f) := by
  intro ops ho
  obtain ⟨s', hs'⟩ := run_keeps ops ho l.element hs
  refine ⟨s', hs', ?_⟩
  simp only [read]
  rw [run_generation ops ho, run_element, hs', if_pos rfl]

/-- **C126**, transitions and fluorescence ratios (`getXRayLines` is another name of `getFluorescenceRatios`): for a
subshell of the element the getters return a reference that follows the data of the subshell, at once (no further call)
and after any calls that keep the shells. -/
theorem C126_follows_partial (l : Live K) {sub : Str} {s : Shell K} (hs : l.element.shells.find? sub = some s) :
    (∃ r, getRadiativeTransitions l sub = .ok r ∧ Follows l sub .radiative r) ∧
    (∃ r, getNonradiativeTransitions l sub = .ok r ∧ Follows l sub .nonradiative r) ∧
    (∃ r, getFluorescenceRatios l sub = .ok r ∧ Follows l sub .fluorescence r) ∧
    (∃ r, getXRayLines l sub = .ok r ∧ Follows l sub .fluorescence r) := by
  have hf : getFluorescenceRatios l sub = .ok (.ofElement l.generation sub .fluorescence) := by
    simp only [getFluorescenceRatios, getShell, hs]; rfl
  refine ⟨⟨_, ?_, ofElement_follows l hs _⟩, ⟨_, ?_, ofElement_follows l hs _⟩,
    ⟨_, hf, ofElement_follows l hs _⟩, ⟨_, hf, ofElement_follows l hs _⟩⟩
  · simp only [getRadiativeTransitions, hs]
  · simp only [getNonradiativeTransitions, hs]

/-- **C126**: an unknown subshell is refused by all of them. -/
theorem C126_unknown (l : Live K) {sub : Str} (hs : l.element.shells.find? sub = none) :
    getRadiativeTransitions l sub = .throw .invalidArgument ∧
    getNonradiativeTransitions l sub = .throw .invalidArgument ∧
    getFluorescenceRatios l sub = .throw .invalidArgument ∧
    getXRayLines l sub = .throw .invalidArgument ∧
    getAugerRatios l sub = .throw .invalidArgument ∧
    getCosterKronigRatios l sub = .throw .invalidArgument := by
  refine ⟨by simp only [getRadiativeTransitions, hs], by simp only [getNonradiativeTransitions, hs], ?_, ?_, ?_, ?_⟩ <;>
    simp only [getFluorescenceRatios, getXRayLines, getAugerRatios, getCosterKronigRatios, getShell, hs] <;> rfl

/-- **C126** is false of `getAugerRatios` and `getCosterKronigRatios`: for every element and every subshell of it, the
returned reference is dead, now and after any calls. -/
theorem C126_dangling_violated (l : Live K) {sub : Str} {s : Shell K} (hs : l.element.shells.find? sub = some s)
    (ops : List (Element.Op K)) :
    (∃ r, getAugerRatios l sub = .ok r ∧ read (run l ops) r = .ub .dangling) ∧
    (∃ r, getCosterKronigRatios l sub = .ok r ∧ read (run l ops) r = .ub .dangling) := by
  refine ⟨⟨.ofLocal, ?_, rfl⟩, ⟨.ofLocal, ?_, rfl⟩⟩ <;>
    simp only [getAugerRatios, getCosterKronigRatios, getShell, hs] <;> rfl

/-- **C126**: new binding energies end the life of all references given before, even when the subshell still exists. -/
theorem C126_binding_violated (l : Live K) {sub : Str} {s : Shell K} (hs : l.element.shells.find? sub = some s)
    (before after : List (Element.Op K)) (b : SMap Str K) :
    ∃ r, getFluorescenceRatios l sub = .ok r ∧
      read (run l (before ++ .setBindingEnergies b :: after)) r = .ub .dangling := by
  refine ⟨.ofElement l.generation sub .fluorescence, by simp only [getFluorescenceRatios, getShell, hs]; rfl, ?_⟩
  have hmono : ∀ (ops : List (Element.Op K)) (l : Live K), l.generation ≤ (run l ops).generation := by
    intro ops
    induction ops with
    | nil => intro l; exact le_rfl
    | cons op t ih =>
      intro l
      refine le_trans ?_ (ih (step l op))
      cases op <;> simp [step]
  have h1 := hmono before l
  have h2 := hmono after (step (run l before) (.setBindingEnergies b))
  have h3 : (step (run l before) (.setBindingEnergies b)).generation = (run l before).generation + 1 := rfl
  have h4 : run l (before ++ .setBindingEnergies b :: after) = run (step (run l before) (.setBindingEnergies b)) after := by
    simp [run, List.foldl_append]
  simp only [read]
  rw [h4, if_neg]
  omega

section Examples
attribute [local instance] Element.exampleTrans

/-- C126 on the element of the examples: the reference obtained first shows the ratios set later. -/
example : getFluorescenceRatios ⟨Element.exampleElement, 0⟩ "K".toList = .ok (.ofElement 0 "K".toList .fluorescence) ∧
    read (⟨Element.exampleElement, 0⟩ : Live ℚ) (.ofElement 0 "K".toList .fluorescence)
      = .ok [("KL2".toList, 1 / 4), ("KL3".toList, 3 / 4)] ∧
    read (run (⟨Element.exampleElement, 0⟩ : Live ℚ) [.setRadiativeMap "K".toList [("KL3".toList, 2)]])
      (.ofElement 0 "K".toList .fluorescence) = .ok [("KL3".toList, 1)] ∧
    getAugerRatios (⟨Element.exampleElement, 0⟩ : Live ℚ) "K".toList = .ok .ofLocal := by
  decide +kernel

end Examples

end Refs
end Fisx
