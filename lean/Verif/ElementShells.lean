import Verif.ElementProps

/-!
# Shell data of an element (property C83)
-/

set_option linter.unusedSectionVars false

namespace Fisx
namespace Element

variable {K : Type} [Field K] [LinearOrder K] [IsStrictOrderedRing K]

/-- The shell has a positive binding energy. -/
def Bound (e : Element K) (sub : Str) : Prop := ∃ b, e.binding.find? sub = some b ∧ 0 < b

/-- Nothing but the shell `sub` and the caches differs. -/
structure SameButShell (sub : Str) (a b : Element K) : Prop where
  number : b.atomicNumber = a.atomicNumber
  binding : b.binding = a.binding
  energies : b.muEnergy = a.muEnergy
  table : b.mu = a.mu
  partials : b.partialE = a.partialE ∧ b.partialV = a.partialV
  others : ∀ k, k ≠ sub → b.shells.find? k = a.shells.find? k

theorem checkSubshell_bound {e : Element K} {sub : Str} {s : Shell K} (hb : e.Bound sub) (hs : e.shells.find? sub = some s) :
    e.checkSubshell sub = .ok s := by
  obtain ⟨b, h1, h2⟩ := hb
  unfold checkSubshell
  rw [h1]
  dsimp only
  rw [if_neg (not_le.2 h2), hs]

theorem checkSubshell_unbound {e : Element K} {sub : Str} (hb : ¬ e.Bound sub) :
    e.checkSubshell sub = .throw .invalidArgument := by
  unfold checkSubshell
  split
  · rfl
  · rename_i b hb'
    rw [if_pos (not_lt.1 fun h => hb ⟨b, hb', h⟩)]

/-- C83: transition rates given for a subshell without positive binding energy are refused, and nothing changes. -/
theorem C83_unbound_refused (e : Element K) (sub : Str) (hb : ¬ e.Bound sub) (labels : List Str) (values : List K)
    (m : SMap Str K) :
    e.setRadiative sub labels values = (.throw .invalidArgument, e) ∧
    e.setRadiativeMap sub m = (.throw .invalidArgument, e) ∧
    e.setNonradiative sub labels values = (.throw .invalidArgument, e) ∧
    e.setNonradiativeMap sub m = (.throw .invalidArgument, e) := by
  have h := checkSubshell_unbound hb
  refine ⟨?_, ?_, ?_, ?_⟩
  · unfold setRadiative; rw [h]
  · unfold setRadiativeMap; rw [h]
  · unfold setNonradiative; rw [h]
  · unfold setNonradiativeMap setNonradiative; rw [h]

/-- C83: yields and rates given for a subshell the element does not have are refused, and nothing changes. -/
theorem C83_unknown_refused (e : Element K) (sub : Str) (hs : e.shells.find? sub = none) (labels : List Str)
    (values : List K) (m : SMap Str K) :
    e.setRadiative sub labels values = (.throw .invalidArgument, e) ∧
    e.setRadiativeMap sub m = (.throw .invalidArgument, e) ∧
    e.setNonradiative sub labels values = (.throw .invalidArgument, e) ∧
    e.setNonradiativeMap sub m = (.throw .invalidArgument, e) ∧
    e.setShellConstants sub m = (.throw .invalidArgument, e) := by
  have h : e.checkSubshell sub = .throw .invalidArgument := by
    unfold checkSubshell
    split
    · rfl
    · split_ifs
      · rfl
      · rw [hs]
  refine ⟨?_, ?_, ?_, ?_, ?_⟩
  · unfold setRadiative; rw [h]
  · unfold setRadiativeMap; rw [h]
  · unfold setNonradiative; rw [h]
  · unfold setNonradiativeMap setNonradiative; rw [h]
  · unfold setShellConstants; rw [hs]

/-- C83: otherwise the outcome of the call is that of the same call on the shell, whose new value is the one that call
leaves, and nothing else changes. -/
theorem C83_shell_updated (e : Element K) (sub : Str) (s : Shell K) (hs : e.shells.find? sub = some s)
    (labels : List Str) (values : List K) (m : SMap Str K) :
    (e.Bound sub →
      ((e.setRadiative sub labels values).1 = (s.setRadiative labels values).1 ∧
        (e.setRadiative sub labels values).2.shells.find? sub = some (s.setRadiative labels values).2 ∧
        SameButShell sub e (e.setRadiative sub labels values).2) ∧
      ((e.setRadiativeMap sub m).1 = (s.setRadiativeMap m).1 ∧
        (e.setRadiativeMap sub m).2.shells.find? sub = some (s.setRadiativeMap m).2 ∧
        SameButShell sub e (e.setRadiativeMap sub m).2) ∧
      ((e.setNonradiative sub labels values).1 = (s.setNonradiative labels values).1 ∧
        (e.setNonradiative sub labels values).2.shells.find? sub = some (s.setNonradiative labels values).2 ∧
        SameButShell sub e (e.setNonradiative sub labels values).2)) ∧
    (e.setShellConstants sub m).1 = (s.setShellConstants m).1 ∧
    (e.setShellConstants sub m).2.shells.find? sub = some (s.setShellConstants m).2 ∧
    SameButShell sub e (e.setShellConstants sub m).2 := by
  have key : ∀ (t : Shell K) (k : Str), k ≠ sub → (e.shells.insert sub t).find? k = e.shells.find? k := by
    intro t k hk
    rw [SMap.find?_insert, if_neg (fun h => hk h.symm)]
  have self : ∀ t : Shell K, (e.shells.insert sub t).find? sub = some t := fun t => by
    rw [SMap.find?_insert, if_pos rfl]
  refine ⟨fun hb => ⟨?_, ?_, ?_⟩, ?_⟩
  · unfold setRadiative
    rw [checkSubshell_bound hb hs]
    exact ⟨rfl, self _, ⟨rfl, rfl, rfl, rfl, ⟨rfl, rfl⟩, fun k hk => key _ k hk⟩⟩
  · unfold setRadiativeMap
    rw [checkSubshell_bound hb hs]
    dsimp only
    split
    · rename_i h
      exact ⟨h.symm, self _, ⟨rfl, rfl, rfl, rfl, ⟨rfl, rfl⟩, fun k hk => key _ k hk⟩⟩
    · exact ⟨rfl, self _, ⟨rfl, rfl, rfl, rfl, ⟨rfl, rfl⟩, fun k hk => key _ k hk⟩⟩
  · unfold setNonradiative
    rw [checkSubshell_bound hb hs]
    dsimp only
    split
    · rename_i h
      exact ⟨h.symm, self _, ⟨rfl, rfl, rfl, rfl, ⟨rfl, rfl⟩, fun k hk => key _ k hk⟩⟩
    · exact ⟨rfl, self _, ⟨rfl, rfl, rfl, rfl, ⟨rfl, rfl⟩, fun k hk => key _ k hk⟩⟩
  · unfold setShellConstants
    rw [hs]
    dsimp only
    split
    · rename_i h
      exact ⟨h.symm, self _, ⟨rfl, rfl, rfl, rfl, ⟨rfl, rfl⟩, fun k hk => key _ k hk⟩⟩
    · exact ⟨rfl, self _, ⟨rfl, rfl, rfl, rfl, ⟨rfl, rfl⟩, fun k hk => key _ k hk⟩⟩

/-- An element with a K shell of 3 keV and L shells without binding energy. -/
def exShells : Element ℚ :=
  ({ atomicNumber := 3, binding := [], muEnergy := [], mu := none, partialE := [], partialV := [], cacheOn := false,
     muCache := [], excCache := [], shells := [], cascadeOn := false, cascadeCache := [] : Element ℚ }.setBindingEnergies
    [("K".toList, 3), ("L1".toList, 0)]).2

/-- The hypotheses are met: the K shell is bound and present, L1 is not bound, M1 is not a shell of this element. -/
example : exShells.Bound "K".toList ∧ (∃ s, exShells.shells.find? "K".toList = some s) ∧ ¬ exShells.Bound "L1".toList ∧
    exShells.shells.find? "M1".toList = none := by
  refine ⟨⟨3, ?_, ?_⟩, ⟨?_, ?_⟩, ?_, ?_⟩
  · decide +kernel
  · decide +kernel
  · exact (exShells.shells.find? "K".toList).getD ⟨[], 0, 0, [], [], [], [], [], []⟩
  · decide +kernel
  · rintro ⟨b, h, hb⟩
    have : exShells.binding.find? "L1".toList = none ∨ exShells.binding.find? "L1".toList = some 0 := by decide +kernel
    rcases this with h' | h'
    · rw [h'] at h; exact nomatch h
    · rw [h'] at h
      obtain rfl := Option.some.inj h
      exact lt_irrefl _ hb
  · decide +kernel

end Element
end Fisx
