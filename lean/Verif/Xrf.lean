import Verif.Config
import Verif.Library

/-!
# Model of `fisx::XRF` (/repo/src/fisx_xrf.cpp, /repo/src/fisx_xrf.h)

The state of `XRF` is its configuration (`Verif/Config.lean`); the members `recentBeam` and
`lastMultilayerFluorescence` are never read. `getMultilayerFluorescence` itself is in `Verif/Multilayer.lean`.
The calls that only forward to the configuration (fisx_xrf.cpp:36-59, 74-140) are those of `Config.Op`.
-/

namespace Fisx
namespace Xrf

variable {K R : Type} [Field K] [LinearOrder K]

/-- fisx_xrf.cpp:61-72, `setGeometry`. -/
def setGeometry (c : Config K R) (alphaIn alphaOut scatteringAngle : K) : Config K R :=
  if scatteringAngle < 0 then c.setGeometry alphaIn alphaOut (alphaIn + alphaOut)
  else c.setGeometry alphaIn alphaOut scatteringAngle

/-! ### Geometric efficiency -/

/-- fisx_xrf.cpp:174-186, both loops: `n` layers from index `i`; `f` is `+=` or `-=`. -/
noncomputable def pathLoop (f : ℝ → ℝ → ℝ) (sample : List (Layer ℝ)) (s : ℝ) : Nat → Nat → ℝ → Outcome ℝ
  | _, 0, d => .ok d
  | i, n + 1, d => do
    let l ← vget sample i
    pathLoop f sample s (i + 1) n (f d (l.thickness / s))

/-- fisx_xrf.cpp:142-193, `getGeometricEfficiency`. A negative reference layer, converted to an unsigned index, is
not below the layer index: the loop of L174 does nothing. A division by a vanishing sine gives an infinity in the code
and is not modelled (the theorems exclude it). -/
noncomputable def getGeometricEfficiency (c : Config ℝ R) (layer : Int) : Outcome ℝ :=
  let s := Real.sin (c.alphaOut * (Real.pi / 180))
  if c.detector.diameter = 0 then .ok 1
  else if c.detector.distance = 0 ∧ layer = 0 then .ok (1 / 2)
  else if layer < 0 then .throw .invalidArgument
  else match c.referenceLayer with
    | none => .ub .uninitialised
    | some ref => do
      let d ← (if layer ≠ ref then
        if layer > ref then
          if ref < 0 then .ok c.detector.distance
          else pathLoop (fun a b => a + b) c.sample s ref.toNat (layer - ref).toNat c.detector.distance
        else pathLoop (fun a b => a - b) c.sample s layer.toNat (ref - layer).toNat c.detector.distance
      else .ok c.detector.distance)
      return 1 / 2 * (1 - d / Real.sqrt (d ^ 2 + (1 / 2 * c.detector.diameter) ^ 2))

/-! ### Thresholds -/

/-- fisx_xrf.cpp:227-257, on the binding energies of the element (missing entries read as 0). -/
def threshold (binding : SMap Str K) (family : Str) : K :=
  let b := Element.at0 binding
  if family = "K".toList ∨ family.length = 2 then b family
  else if family = "L".toList then
    if b "L3".toList > 0 then b "L3".toList
    else if b "L2".toList > 0 then b "L2".toList
    else b "L1".toList
  else if family = "M".toList then
    if b "M5".toList > 0 then b "M5".toList
    else if b "M4".toList > 0 then b "M4".toList
    else if b "M3".toList > 0 then b "M3".toList
    else if b "M2".toList > 0 then b "M2".toList
    else b "M1".toList
  else 0

/-- fisx_xrf.cpp:227-257, `getEnergyThreshold`. -/
def getEnergyThreshold (L : Library K) (element : String) (family : String) : Outcome K := do
  let e ← L.getElement element
  return threshold e.data.binding family.toList

/-! ### Requests -/

/-- One line family of one element, in one layer or, if negative, in all of them. -/
structure Request where
  element : String
  family : String
  layer : Int
deriving DecidableEq, Repr

/-- fisx_xrf.cpp:415-441: one request string. -/
def parseRequest (int : Str → Option Int) (s : Str) : Outcome Request :=
  match Ini.multipleValues Ini.word ' ' [] s with
  | [e, f, l] =>
    match int l with
    | none => .throw .invalidArgument
    | some n => .ok { element := String.ofList e, family := String.ofList f, layer := n }
  | [e, f] => .ok { element := String.ofList e, family := String.ofList f, layer := -1 }
  | [e] => .ok { element := String.ofList e, family := "", layer := -1 }
  | _ => .ok { element := "", family := "", layer := 0 }

/-- fisx_xrf.cpp:413-442: all of them. -/
def parseRequests (int : Str → Option Int) : List Str → Outcome (List Request)
  | [] => .ok []
  | s :: t => do
    let r ← parseRequest int s
    let rs ← parseRequests int t
    return r :: rs

/-- fisx_xrf.cpp:204-224: the request of the overload with one element. -/
def singleRequest (element : String) (layer : Int) (family : String) : Outcome Request :=
  if family = "" then .throw .invalidArgument
  else if layer < 0 then .throw .invalidArgument
  else .ok { element := element, family := family, layer := layer }

end Xrf
end Fisx
