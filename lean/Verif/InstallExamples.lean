import Verif.InstallQuery
import Verif.ElementTotal

/-!
# Examples for properties C104 to C107

The numbers are rational here, with the functions of `exampleTrans`.
-/

namespace Fisx
namespace Element

attribute [local instance] exampleTrans

/-- A library with one element: energies 1, 2, 3, 4, 5 keV; K, L1 and the outer shells have coefficients 10, 2 and 1. -/
def exampleLib : EPDL97 ℚ :=
  { initialized := true, binding := [],
    labelIndex := [("K".toList, 1), ("L1".toList, 2), ("L2".toList, 3), ("L3".toList, 3), ("M1".toList, 3), ("M2".toList, 3),
      ("M3".toList, 3), ("M4".toList, 3), ("M5".toList, 3), ("all other".toList, 4), ("coherent".toList, 5),
      ("compton".toList, 6), ("energy".toList, 0), ("pair".toList, 7)],
    values := [[1, 2, 3, 4, 5].map (fun x => [x, 10, 2, 0, 1, 4, 3, 0])],
    muEnergy := [[1, 2, 3, 4, 5]] }

/-- An element with a K shell at 3 keV and an L1 shell at 1 keV. -/
def exampleEl : Element ℚ :=
  { atomicNumber := 1,
    binding := [("K".toList, 3), ("L1".toList, 1), ("L2".toList, 0), ("L3".toList, 0), ("M1".toList, 0), ("M2".toList, 0),
      ("M3".toList, 0), ("M4".toList, 0), ("M5".toList, 0)],
    muEnergy := [], mu := none, partialE := emptyPartials, partialV := emptyPartials, cacheOn := false, muCache := [],
    excCache := [], shells := [], cascadeOn := false, cascadeCache := [] }

/-- What is queried after a call: the energies and, at energy `x`, the coherent and photoelectric coefficients and the
partial ones of K, L1 and the outer shells. -/
def outline (r : Outcome Unit × Element ℚ) (x : ℚ) : Outcome (List ℚ × List ℚ) := do
  r.1
  let m ← r.2.getMu x
  return (r.2.muEnergy, [m.coherent, m.photoelectric, at0 m.partials "K".toList, at0 m.partials "L1".toList,
    at0 m.partials "all other".toList])

/-- C104: without an edge in the supplied values, two energies of EPDL97 are kept and the supplied coefficients are found
at the supplied energies; the shells share the supplied photoelectric coefficient as they do in EPDL97 (C105). -/
example : outline (exampleEl.install exampleLib [4, 5, 6] [26, 13, 13] [8, 8, 8] [9, 9, 9] [0, 0, 0]) 4
    = .ok ([1, 2, 4, 5, 6], [8, 26, 20, 4, 2]) := by decide +kernel

/-- C105, C104: with an edge 50 eV below the binding energy, the point above the edge is moved to the binding energy. There
the supplied coefficient is 2000, only the K shell follows it, and the sum of the partial coefficients is another number. -/
example : outline (exampleEl.install exampleLib [5/2, 59/20, 59/20, 4] [300, 300, 2000, 2000] [8, 8, 8, 8] [9, 9, 9, 9]
      [0, 0, 0, 0]) 3
    = .ok ([1, 5/2, 59/20, 3, 4], [8, 20000 / 13 + 3, 20000 / 13, 2, 1]) := by decide +kernel

/-- The values of EPDL97 for the element. -/
def exampleTable : SMap Str (List ℚ) :=
  [("K".toList, [10, 10, 10, 10, 10]), ("L1".toList, [2, 2, 2, 2, 2]), ("L2".toList, [0, 0, 0, 0, 0]),
   ("L3".toList, [0, 0, 0, 0, 0]), ("M1".toList, [0, 0, 0, 0, 0]), ("M2".toList, [0, 0, 0, 0, 0]),
   ("M3".toList, [0, 0, 0, 0, 0]), ("M4".toList, [0, 0, 0, 0, 0]), ("M5".toList, [0, 0, 0, 0, 0]),
   ("all other".toList, [1, 1, 1, 1, 1]), ("coherent".toList, [4, 4, 4, 4, 4]), ("compton".toList, [3, 3, 3, 3, 3]),
   ("energy".toList, [1, 2, 3, 4, 5]), ("pair".toList, [0, 0, 0, 0, 0]), ("photoelectric".toList, [13, 13, 13, 13, 13]),
   ("total".toList, [20, 20, 20, 20, 20])]

theorem example_table : exampleLib.getTable exampleEl.atomicNumber = .ok exampleTable := by decide +kernel

/-- The hypotheses of `C105_violated` in this case. -/
example : (exampleEl.install exampleLib [5/2, 59/20, 59/20, 4] [300, 300, 2000, 2000] [8, 8, 8, 8] [9, 9, 9, 9]
      [0, 0, 0, 0]).1 = .ok () ∧ 1 < (col exampleTable "energy").length ∧
      ((exampleEl.setAll exampleTable).2.extractEdges [5/2, 59/20, 59/20, 4] [300, 300, 2000, 2000]).1
        = .ok [("K".toList, (59/20, 1))] := by
  refine ⟨by decide +kernel, by decide +kernel, by decide +kernel⟩

/-- C106: a call with too few photoelectric coefficients throws; the 2 supplied points of a previous call are lost. -/
example :
    let e := (exampleEl.install exampleLib [4, 5] [26, 13] [8, 8] [9, 9] [0, 0]).2
    e.muEnergy = [1, 2, 4, 5] ∧
    (e.install exampleLib [4, 5] [26] [8, 8] [9, 9] [0, 0]).1 = .throw .runtimeError ∧
    (e.install exampleLib [4, 5] [26] [8, 8] [9, 9] [0, 0]).2.muEnergy = [1, 2, 3, 4, 5] := by decide +kernel

/-- C107: the three undefined behaviours. -/
example : (exampleEl.install exampleLib [] [] [] [] []).1 = .ub .outOfBounds ∧
    (exampleEl.install exampleLib [6, 7] [26, 13] [8, 8] [9, 9] [0, 0]).1 = .ub .outOfBounds ∧
    (exampleEl.install exampleLib [4, 5] [26, 13] [8, 8] [9, 9] []).1 = .ub .outOfBounds := by decide +kernel

/-- The element with the values of EPDL97. -/
def exampleReset : Element ℚ :=
  { exampleEl with
    muEnergy := [1, 2, 3, 4, 5]
    mu := some { coherent := [4, 4, 4, 4, 4], compton := [3, 3, 3, 3, 3], pair := [0, 0, 0, 0, 0],
                 photoelectric := [13, 13, 13, 13, 13], total := [20, 20, 20, 20, 20] }
    partialE := photoShells.map (fun s => (s, [1, 2, 3, 4, 5]))
    partialV := [("K".toList, [10, 0, 10, 10, 10]), ("L1".toList, [2, 2, 2, 2, 2]), ("L2".toList, [0, 0, 0, 0, 0]),
      ("L3".toList, [0, 0, 0, 0, 0]), ("M1".toList, [0, 0, 0, 0, 0]), ("M2".toList, [0, 0, 0, 0, 0]),
      ("M3".toList, [0, 0, 0, 0, 0]), ("M4".toList, [0, 0, 0, 0, 0]), ("M5".toList, [0, 0, 0, 0, 0]),
      ("all other".toList, [1, 1, 1, 1, 1])] }

theorem example_reset : (exampleEl.setAll exampleTable).2 = exampleReset := by decide +kernel

theorem example_complete : Complete exampleReset where
  energies := by decide
  table := ⟨_, rfl, rfl, rfl, rfl⟩
  partials := by
    refine Or.inr ⟨?_, ⟨_, _, rfl, rfl, rfl, by decide⟩⟩
    intro s hs
    simp only [keys, List.mem_cons, List.not_mem_nil, or_false] at hs
    rcases hs with rfl | rfl | rfl | rfl | rfl | rfl | rfl | rfl | rfl
    · exact ⟨3, rfl, fun _ => ⟨_, _, rfl, rfl, rfl, by decide, by decide +kernel⟩⟩
    · exact ⟨1, rfl, fun _ => ⟨_, _, rfl, rfl, rfl, by decide, by decide +kernel⟩⟩
    all_goals exact ⟨0, rfl, fun h => absurd rfl h⟩
  shells := by intro k hk; simp [exampleReset, exampleEl] at hk
  yields := by intro k s h; cases h
  transfers := by intro k s h; cases h
  lines := by intro k s t r h; cases h
  cascade := by intro h; cases h

/-- The hypotheses of `C107_partial` hold for this element and all the tables from 1 to 5 keV on. -/
example : (∀ x, ∃ m, (exampleEl.setAll exampleTable).2.getMu x = .ok m) ∧ 1 < (col exampleTable "energy").length ∧
    ∀ x : ℚ, x ≤ 5 → ∃ y ∈ col exampleTable "energy", ¬ y < x := by
  refine ⟨?_, by decide +kernel, ?_⟩
  · intro x
    rw [example_reset]
    exact Outcome.good_false_iff.1 (getMu_good example_complete x)
  · intro x hx
    exact ⟨5, by decide +kernel, not_lt.2 hx⟩

end Element
end Fisx
