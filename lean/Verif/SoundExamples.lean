import Verif.Sound
import Verif.InitExamples

/-!
# Data that make sense

The hypothesis `SaneData` of C127 is met by the libraries of `InitExamples.lean`.
-/

namespace Fisx
namespace Init
open Loader
attribute [local instance] Element.exampleTrans

/-- A check of `SaneData`. -/
def saneCheck (L : Library ℚ) : Bool :=
  L.elements.all (fun e => e.data.binding.all (fun p => decide (0 ≤ p.2)) &&
    Element.keys.all (fun sub => match e.data.shells.find? sub with
      | some s => s.fluorescence.all (fun p => sub.isPrefixOf p.1 && !(p.1.contains ' '))
      | none => true))

theorem saneData_of_check {L : Library ℚ} (h : saneCheck L = true) : SaneData L := by
  unfold saneCheck at h
  rw [List.all_eq_true] at h
  refine ⟨fun e he k b hb => ?_, fun e he sub hsub s hs t r ht => ?_⟩
  · have h1 := h e he
    rw [Bool.and_eq_true, List.all_eq_true] at h1
    exact of_decide_eq_true (h1.1 (k, b) (SMap.mem_of_find? hb))
  · have h1 := h e he
    rw [Bool.and_eq_true, List.all_eq_true, List.all_eq_true] at h1
    have h2 := h1.2 sub hsub
    rw [hs] at h2
    dsimp only at h2
    rw [List.all_eq_true] at h2
    have h3 := h2 (t, r) ht
    rw [Bool.and_eq_true] at h3
    refine ⟨List.isPrefixOf_iff_prefix.1 h3.1, fun hc => ?_⟩
    simp [hc] at h3

/-- Both libraries are made, have lines, and pass. -/
def saneExCheck : Bool :=
  (match setUp false ⟨[],0,0,0,0,0⟩ exStrtod exFiles "d" "" with
    | .ok d => saneCheck d.lib && d.lib.elements.any (fun e => match e.data.shells.find? "K".toList with
        | some s => s.fluorescence.length == 1 | none => false)
    | _ => false) &&
  (match construct2 false ⟨[],0,0,0,0,0⟩ pymcaStrtod pymcaExFiles "d" true with
    | .ok d => saneCheck d.lib
    | _ => false)

example : saneExCheck = true := by decide +kernel

end Init
end Fisx
