import Verif.InitFiles

/-!
# A directory of files the constructors accept

The hypotheses of C119 to C125 are met: with these files the library is constructed.
-/

namespace Fisx
namespace Init
open Loader
attribute [local instance] Element.exampleTrans

def bindingText : Str := "#S 1 B\n#L Z  K(eV)  L1(eV)  L2(eV)  L3(eV)  M1(eV)  M2(eV)  M3(eV)  M4(eV)  M5(eV)\n1  3  2  2  0  0  0  0  0  0\n2  3  2  1  1  1  0  0  0  0\n".toList
def scanText : Str := "#S 1 H\n#L energy  compton  coherent  photoelectric  total  K  L1  L2  L3  M1  M2  M3  M4  M5  allother\n1 1 1 1 3 1 0 0 0 0 0 0 0 0 0\n2 1 1 1 3 1 0 0 0 0 0 0 0 0 0\n3 1 1 1 3 1 0 0 0 0 0 0 0 0 0\n\n".toList
def crossText : Str := (List.replicate 99 scanText).flatten
def constText (n : Nat) : Str := (List.replicate n "#S 1 s\n#L Z  omega\n1  0.5\n1  0.25\n1  0.5\n1  0.5\n1  0.5\n\n".toList).flatten
def ratesText (lines : List String) : Str :=
  (lines.map (fun l => "#S 1 s\n#L Z  TOTAL  ".toList ++ l.toList ++ "\n1  1  1\n1  1  1\n1  1  1\n1  1  1\n1  1  1\n\n".toList)).flatten

/-- The files of a directory `d`. -/
def exFiles : Files := fun p =>
  if p = "d//EADL97_BindingEnergies.dat" then some bindingText
  else if p = "d//EPDL97_CrossSections.dat" then some crossText
  else if p = "d//EADL97_KShellConstants.dat" then some (constText 1)
  else if p = "d//EADL97_LShellConstants.dat" then some (constText 3)
  else if p = "d//EADL97_MShellConstants.dat" then some (constText 5)
  else if p = "d//EADL97_KShellRadiativeRates.dat" then some (ratesText ["KL3"])
  else if p = "d//EADL97_LShellRadiativeRates.dat" then some (ratesText ["L1M2", "L2M4", "L3M5"])
  else if p = "d//EADL97_MShellRadiativeRates.dat" then some (ratesText ["M1N2", "M2N2", "M3N2", "M4N2", "M5N3"])
  else if p = "d//EADL97_KShellNonradiativeRates.dat" then some (ratesText ["K-L1L1"])
  else if p = "d//EADL97_LShellNonradiativeRates.dat" then some (ratesText ["L1-M1M1", "L2-M1M1", "L3-M1M1"])
  else if p = "d//EADL97_MShellNonradiativeRates.dat" then some (ratesText ["M1-N1N1", "M2-N1N1", "M3-N1N1", "M4-N1N1", "M5-N1N1"])
  else none

/-- What the calls give on the library made of these files. -/
def exCheck : Bool :=
  match setUp false ⟨[],0,0,0,0,0⟩ exStrtod exFiles "d" "" with
  | .ok d =>
    (match getShellConstants d "He" "K".toList with | .ok c => c.find? "omega".toList == some (1/4 : ℚ) | _ => false) &&
    (match getRadiativeTransitions d "He" "K".toList with | .ok c => c.find? "KL3".toList == some (1 : ℚ) | _ => false) &&
    (match getNonradiativeTransitions d "He" "K".toList with | .ok c => c.find? "K-L1L1".toList == some (1 : ℚ) | _ => false) &&
    (match getBindingEnergies d "He" with | .ok c => c.find? "L1".toList == some (2 : ℚ) | _ => false) &&
    (match getCoefficientTable d "Fe" with | .ok c => c.find? "total".toList == some ([3, 3, 3] : List ℚ) | _ => false)
  | _ => false

example : exCheck = true := by decide +kernel

/-- The numbers of these files. -/
def pymcaStrtod (s : Str) : ℚ :=
  if s = "1.5".toList then 3 / 2 else if s = "2.5".toList then 5 / 2 else exStrtod s

/-- The files of PyMca. -/
def pymcaExFiles : Files := fun p =>
  if p = "d//BindingEnergies.dat" then some "#S 1 B\n#L Z  K(eV)  L1(eV)  L2(eV)  L3(eV)  M1(eV)  M2(eV)  M3(eV)  M4(eV)  M5(eV)\n1  1  0  0  0  0  0  0  0  0\n2  3  2  1  1  1  0  0  0  0\n".toList
  else if p = "d//XCOM_CrossSections.dat" then
    some "#S 1 H\n#L energy  compton  coherent  photoelectric  pair\n1.5 1 1 3 0\n2 1 1 2 0\n2.5 1 1 1 0\n\n".toList
  else if p = "d//KShellConstants.dat" then some "#S 1 s\n#L Z  omegaK\n1  1\n1  2\n".toList
  else if p = "d//LShellConstants.dat" then some (constText 3)
  else if p = "d//MShellConstants.dat" then some (constText 5)
  else if p = "d//KShellRates.dat" then some (ratesText ["KM3"])
  else if p = "d//LShellRates.dat" then some (ratesText ["L1M2", "L2M4", "L3M5"])
  else if p = "d//MShellRates.dat" then some (ratesText ["M1N2", "M2N2", "M3N2", "M4N2", "M5N3"])
  else exFiles p

/-- What the calls give on the library made of these files. -/
def pymcaCheck : Bool :=
  match construct2 false ⟨[],0,0,0,0,0⟩ pymcaStrtod pymcaExFiles "d" true with
  | .ok d =>
    (match getShellConstants d "He" "K".toList with
      | .ok c => c.find? "omega".toList == some (2 : ℚ) | _ => false) &&
    (match getRadiativeTransitions d "He" "K".toList with
      | .ok c => c.find? "KM3".toList == some (1 : ℚ) && c.find? "KL3".toList == none | _ => false) &&
    (match getNonradiativeTransitions d "He" "K".toList with | .ok c => c.find? "K-L1L1".toList == some (1 : ℚ) | _ => false) &&
    (match getCoefficientTable d "H" with | .ok c => c.find? "photoelectric".toList == some ([3, 2, 1] : List ℚ) | _ => false)
  | _ => false

example : pymcaCheck = true := by decide +kernel

end Init
end Fisx
