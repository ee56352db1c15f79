import Verif.Material
import Mathlib.Analysis.SpecialFunctions.Trigonometric.Basic
import Mathlib.Analysis.SpecialFunctions.Exp
import Mathlib.Analysis.SpecialFunctions.Pow.Real

/-!
# Model of `fisx::Layer` (/repo/src/fisx_layer.cpp, /repo/src/fisx_layer.h)
-/

namespace Fisx

/-- fisx_layer.h:126-133, the data members. -/
structure Layer (K : Type) where
  name : String
  materialName : String
  hasMaterial : Bool
  material : Material K
  funnyFactor : K
  density : K
  thickness : K

namespace Layer

variable {K : Type} [Field K] [LinearOrder K]

/-- fisx_layer.cpp:36-45, the constructor: no check of the supplied numbers. -/
def new (name : String) (density thickness funnyFactor : K) : Layer K :=
  { name := name, materialName := name, hasMaterial := false, material := Material.new,
    funnyFactor := funnyFactor, density := density, thickness := thickness }

/-- fisx_layer.cpp:47-54. -/
def setDensity (l : Layer K) (v : K) : Outcome Unit × Layer K :=
  if v ≤ 0 then (.throw .invalidArgument, l) else (.ok (), { l with density := v })

/-- fisx_layer.cpp:56-63. -/
def setThickness (l : Layer K) (v : K) : Outcome Unit × Layer K :=
  if v ≤ 0 then (.throw .invalidArgument, l) else (.ok (), { l with thickness := v })

/-- fisx_layer.cpp:65-69. -/
def setMaterialName (l : Layer K) (n : String) : Layer K :=
  { l with materialName := n, hasMaterial := false }

/-- fisx_layer.cpp:71-83. Note the strict test on the density and the non-strict one on the
thickness. -/
def setMaterial (l : Layer K) (m : Material K) : Layer K :=
  { l with
    material := m
    density := if l.density < 0 then m.defaultDensity else l.density
    thickness := if l.thickness ≤ 0 then m.defaultThickness else l.thickness
    hasMaterial := true }

/-- The mutating API (fisx_layer.h:53-55, 117-118). -/
inductive Op (K : Type)
  | setDensity (v : K)
  | setThickness (v : K)
  | setMaterialName (n : String)
  | setMaterial (m : Material K)

/-- One call. -/
def step (l : Layer K) : Op K → Outcome Unit × Layer K
  | .setDensity v => l.setDensity v
  | .setThickness v => l.setThickness v
  | .setMaterialName n => (.ok (), l.setMaterialName n)
  | .setMaterial m => (.ok (), l.setMaterial m)

/-- A history. -/
def run (l : Layer K) (ops : List (Op K)) : Layer K := ops.foldl (fun l op => (l.step op).2) l

/-- A `double` result when a division by zero is possible: a number, an infinity or not-a-number. -/
inductive Ext
  | fin (x : ℝ)
  | posInf
  | negInf
  | nan

/-- fisx_layer.cpp:130-145 (and 164-175, identical): mass thickness seen by the beam. When the sine vanishes the
IEEE division gives an infinity with the sign of the numerator, or NaN for 0/0. -/
noncomputable def massThickness (l : Layer ℝ) (angle : ℝ) : Ext :=
  if angle = 90 then .fin (l.density * l.thickness)
  else
    let s := if angle < 0 then Real.sin (-angle * Real.pi / 180) else Real.sin (angle * Real.pi / 180)
    if s = 0 then
      if l.density * l.thickness > 0 then .posInf
      else if l.density * l.thickness < 0 then .negInf else .nan
    else .fin ((l.density * l.thickness) / s)

/-- fisx_layer.cpp:153 and 194-195: the transmission for a mass thickness that passed the check. With infinite
thickness: exp(-inf) = 0 for positive attenuation, exp(+inf) for a negative one, inf*0 = NaN. -/
noncomputable def transmissionOf (funny : ℝ) (d : Ext) (mu : ℝ) : Ext :=
  match d with
  | .fin x => .fin ((1 - funny) + funny * Real.exp (-(x * mu)))
  | .posInf =>
    if mu > 0 then .fin ((1 - funny) + funny * 0)
    else if mu < 0 then (if funny > 0 then .posInf else if funny < 0 then .negInf else .nan)
    else .nan
  | .negInf => .nan   -- not reached: rejected by the check
  | .nan => .nan

/-- fisx_layer.cpp:146 and 177, `if (tmpDouble <= 0.0)`: NaN compares false. -/
noncomputable def nonPositive : Ext → Bool
  | .fin x => decide (x ≤ 0)
  | .posInf => false
  | .negInf => true
  | .nan => false

/-- fisx_layer.cpp:115-154, scalar `getTransmission`. `mu` is what the elements library answers for the
total mass attenuation coefficient (L122-129). -/
noncomputable def getTransmission (l : Layer ℝ) (mu : Outcome ℝ) (angle : ℝ) : Outcome Ext := do
  let m ← mu
  let d := l.massThickness angle
  if nonPositive d then .throw .runtimeError
  else return transmissionOf l.funnyFactor d m

/-- fisx_layer.cpp:156-198, vector `getTransmission`: here the thickness is checked before the library is
asked. -/
noncomputable def getTransmissions (l : Layer ℝ) (mus : Outcome (List ℝ)) (angle : ℝ) :
    Outcome (List Ext) :=
  let d := l.massThickness angle
  if nonPositive d then .throw .runtimeError
  else do
    let ms ← mus
    return ms.map (transmissionOf l.funnyFactor d)

end Layer
end Fisx
