import Verif.ElementInfo
import Verif.Library

/-!
# C159: formulas with elements of the user

`Library.formula` gives every element an atomic mass. The constructors of `Element` do not (ElementInfo): reading the mass of an
element that got none reads an uninitialised variable. Here the loop of `getCompositionFromFormula` reads the mass as `getAtomicMass`
of ElementInfo does.
-/

set_option linter.unusedSectionVars false

namespace Fisx
namespace Library

section model

variable {K : Type} [Field K] [LinearOrder K]

/-- fisx_elements.cpp:1528-1542, the loop over the elements of a formula: `known n` is what `elementDict` and `elementList` have for
the name (nothing, or the element). An unknown name ends it with no composition. -/
def massLoop (known : String → Option (ElementInfo K)) : List (String × K) → Outcome (Option (List (String × K)))
  | [] => .ok (some [])
  | (n, x) :: rest =>
    match known n with
    | none => .ok none
    | some e => do
      let a ← e.getAtomicMass
      let r ← massLoop known rest
      return r.map ((n, x * a) :: ·)

/-- fisx_elements.cpp:1512-1548, `getCompositionFromFormula`. -/
def formulaRead (pf : String → Outcome (SMap String K)) (known : String → Option (ElementInfo K)) (name : String) :
    Outcome (SMap String K) := do
  let f ← pf name
  match ← massLoop known f with
  | none => return []
  | some m => return m.map (fun e => (e.1, e.2 / SMap.total m))

/-- What the library knows of its elements, when all of them have a mass. -/
def infoOf (L : Library K) (info : LibElement K → ElementInfo K) (n : String) : Option (ElementInfo K) :=
  match L.dict.find? n with
  | none => none
  | some i => (L.elements[i]?).map info

end model

section theorems

variable {K : Type} [Field K] [LinearOrder K] [IsStrictOrderedRing K]

theorem massLoop_masses (L : Library K) (info : LibElement K → ElementInfo K)
    (h : ∀ e ∈ L.elements, (info e).getAtomicMass = .ok e.mass) :
    ∀ f : List (String × K), massLoop (infoOf L info) f = .ok (L.masses f)
  | [] => rfl
  | (n, x) :: rest => by
    have ih := massLoop_masses L info h rest
    unfold massLoop masses
    have hinfo : infoOf L info n = match L.dict.find? n with
      | none => none
      | some i => (L.elements[i]?).map info := rfl
    rw [hinfo]
    cases hd : L.dict.find? n with
    | none => rfl
    | some i =>
      dsimp only
      cases he : L.elements[i]? with
      | none => rfl
      | some e =>
        have := h e (List.mem_of_getElem? he)
        simp only [Option.map_some]
        rw [this, Outcome.ok_bind, ih, Outcome.ok_bind]
        rfl

/-- **C159** (partial: every element of the library has a mass, as those of the package have) The composition of every formula is the one
of `Library.formula` (C28, C29), read without touching an uninitialised variable. -/
theorem C159_formula_partial (pf : String → Outcome (SMap String K)) (L : Library K) (info : LibElement K → ElementInfo K)
    (h : ∀ e ∈ L.elements, (info e).getAtomicMass = .ok e.mass) (name : String) :
    formulaRead pf (infoOf L info) name = L.formula pf name := by
  unfold formulaRead formula
  simp only [massLoop_masses L info h, Outcome.ok_bind]
  rfl

theorem massLoop_unset (known : String → Option (ElementInfo K)) :
    ∀ (f : List (String × K)) (n : String) (x : K) (e : ElementInfo K), (n, x) ∈ f → known n = some e →
      e.getAtomicMass = .ub .uninitialised → (∀ p ∈ f, ∃ e, known p.1 = some e) →
      massLoop known f = .ub .uninitialised
  | [], _, _, _, h, _, _, _ => by simp at h
  | (n', x') :: rest, n, x, e, h, hk, hu, hall => by
    obtain ⟨e', he'⟩ := hall (n', x') (by simp)
    unfold massLoop
    rw [he']
    dsimp only
    have hcase : (∃ a, e'.getAtomicMass = .ok a) ∨ e'.getAtomicMass = .ub .uninitialised := by
      unfold ElementInfo.getAtomicMass
      cases e'.atomicMass with
      | none => exact Or.inr rfl
      | some a => exact Or.inl ⟨a, rfl⟩
    rcases hcase with ⟨a, ha⟩ | hb
    · rcases List.mem_cons.1 h with h | h
      · cases h
        rw [hk] at he'
        cases he'
        rw [hu] at ha
        cases ha
      · rw [ha, Outcome.ok_bind, massLoop_unset known rest n x e h hk hu (fun p hp => hall p (by simp [hp]))]
        rfl
    · rw [hb]; rfl

/-- **C159** (the unrestricted claim) is false: any formula of known elements one of which got no mass (an element made by the user with
its name and atomic number, whatever else was set) makes the library read an uninitialised variable. -/
theorem C159_unset_violated (pf : String → Outcome (SMap String K)) (known : String → Option (ElementInfo K)) (name : String)
    (f : SMap String K) (hf : pf name = .ok f) (hall : ∀ p ∈ f, ∃ e, known p.1 = some e) (n : String) (x : K)
    (hn : (n, x) ∈ f) (e : ElementInfo K) (he : known n = some e) (hu : e.getAtomicMass = .ub .uninitialised) :
    formulaRead pf known name = .ub .uninitialised := by
  unfold formulaRead
  rw [hf, Outcome.ok_bind, massLoop_unset known f n x e hn he hu hall]
  rfl

/-- An element of the user: name, atomic number and density were set. -/
example : ∃ e : ElementInfo ℚ, ElementInfo.mk? "Qq".toList 119 = .ok e ∧
    formulaRead (fun _ => .ok [("H", 2), ("Qq", 1)])
      (fun n => if n = "H" then some { e with atomicMass := some 1 } else if n = "Qq" then some (e.step (.setDensity 3)).2 else none)
      "H2Qq" = .ub .uninitialised := ⟨_, rfl, by decide +kernel⟩

/-- And with a mass. -/
example : ∃ e : ElementInfo ℚ, ElementInfo.mk? "Qq".toList 119 = .ok e ∧
    formulaRead (fun _ => .ok [("H", 2), ("Qq", 1)])
      (fun n => if n = "H" then some { e with atomicMass := some 1 } else if n = "Qq" then some (e.step (.setAtomicMass 3)).2 else none)
      "H2Qq" = .ok [("H", 2 / 5), ("Qq", 3 / 5)] := ⟨_, rfl, by decide +kernel⟩

end theorems

end Library
end Fisx
