import Verif.MultilayerC46
import Verif.LibraryEscape

/-!
# `XRF::getMultilayerFluorescence` for a configuration and a library

The environment of `Verif/Multilayer.lean` built from the configuration (`Verif/Config.lean`) and the elements library
(`Verif/Library.lean`), the part of the function before the loop over the rays, and the overloads.
As everywhere, the depth of the recursion in the library is bounded by `fuel` and `pf` is `parseFormula`; `srt` is
`std::sort`.
-/

set_option linter.unusedSectionVars false

namespace Fisx
namespace Multilayer

open Xrf (Request)

section model

variable {R : Type} (pf : String → Outcome (SMap String ℝ)) (fuel : Nat) (L : Library ℝ)

/-- A `double` that is used as a number. Simplification: infinities and not-a-number, produced for a vanishing sine of
the outgoing angle only, are replaced by 0; the theorems about values exclude that angle. -/
noncomputable def finite : Layer.Ext → ℝ
  | .fin x => x
  | _ => 0

/-- fisx_xrf.cpp:266-283, `getLayerComposition`. -/
noncomputable def layerComposition (c : Config ℝ R) (l : Layer ℝ) : Outcome (SMap String ℝ) :=
  if l.hasMaterial then L.compMap pf c.materials fuel l.material.composition
  else L.compWith pf c.materials fuel l.materialName

/-- fisx_xrf.cpp:285-295, `getLayerMassAttenuationCoefficients` at one energy; `comp` is empty when it is not given. -/
noncomputable def layerMu (c : Config ℝ R) (l : Layer ℝ) (e : ℝ) (comp : SMap String ℝ) : Outcome (Mix ℝ) :=
  if comp.length > 0 then L.mixMu pf fuel comp e true
  else do
    let m ← layerComposition pf fuel L c l
    L.mixMu pf fuel m e false

/-- fisx_xrf.cpp:297-312, the same at several energies. -/
noncomputable def layerMus (c : Config ℝ R) (l : Layer ℝ) (es : List ℝ) (comp : SMap String ℝ) :
    Outcome (List (Mix ℝ)) :=
  if comp.length > 0 then L.mixMus pf fuel comp es true
  else do
    let m ← layerComposition pf fuel L c l
    L.mixMus pf fuel m es false

/-- fisx_xrf.cpp:327-366, `getLayerTransmission` at several energies. -/
noncomputable def layerTransmissions (c : Config ℝ R) (l : Layer ℝ) (es : List ℝ) (angle : ℝ) (comp : SMap String ℝ) :
    Outcome (List ℝ) := do
  let ts ← l.getTransmissions (do let ms ← layerMus pf fuel L c l es comp; return ms.map Mix.total) angle
  return ts.map finite

/-- fisx_xrf.cpp:314-325, at one energy. -/
noncomputable def layerTransmission (c : Config ℝ R) (l : Layer ℝ) (e : ℝ) (angle : ℝ) (comp : SMap String ℝ) :
    Outcome ℝ := do
  let ts ← layerTransmissions pf fuel L c l [e] angle comp
  vget ts 0

/-- fisx_xrf.cpp:368-392, `getLayerPeakFamilies`: the elements of the composition (the keys of a map are distinct). -/
noncomputable def layerFamilies (srt : List (String × ℝ) → List (String × ℝ)) (c : Config ℝ R) (l : Layer ℝ) (e : ℝ)
    (comp : SMap String ℝ) : Outcome (List (String × ℝ)) :=
  if comp.length > 0 then L.peakFamilies srt comp.keys e
  else do
    let m ← layerComposition pf fuel L c l
    L.peakFamilies srt m.keys e

/-- fisx_layer.cpp:115-129 for the detector: the total coefficient, without the materials of the configuration. -/
noncomputable def detectorMu (d : Layer ℝ) (e : ℝ) : Outcome ℝ := do
  let m ← (if d.hasMaterial then L.mixMu pf fuel d.material.composition e false else L.nameMu pf fuel d.materialName e)
  return m.total

/-- fisx_multilayer.cpp:542-549. -/
noncomputable def detectorIntrinsic (d : Layer ℝ) (e : ℝ) : Outcome ℝ :=
  if d.density > 0 ∧ d.thickness > 0 then do
    let t ← d.getTransmission (detectorMu pf fuel L d e) 90
    return 1 - finite t
  else .ok 1

/-- fisx_layer.cpp:96-106 for the detector. -/
noncomputable def detectorComposition (p : Detector.EscapeParams ℝ) : Outcome (SMap String ℝ) :=
  if p.hasMaterial then L.compMap pf [] fuel p.material else L.comp pf fuel p.materialName

/-- fisx_detector.cpp:148-154: the escape peaks of the library for the detector (thickness 0). -/
noncomputable def detectorEscape (p : Detector.EscapeParams ℝ) (e : ℝ) : Outcome (SMap String (Line ℝ)) := do
  let comp ← detectorComposition pf fuel L p
  let key : EscapeKey ℝ := ⟨comp, p.energyThreshold, p.intensityThreshold, p.nThreshold, p.alphaIn, 0⟩
  L.getEscape pf fuel key e

/-- fisx_multilayer.cpp:88-91: the compositions of the layers of the sample. -/
noncomputable def compositions (c : Config ℝ R) : List (Layer ℝ) → Outcome (List (SMap String ℝ))
  | [] => .ok []
  | l :: rest => do
    let m ← layerComposition pf fuel L c l
    let r ← compositions c rest
    return m :: r

/-- fisx_multilayer.cpp:102-105, 111-114: the weights are multiplied by the transmissions. -/
noncomputable def attenuate (rays : List (ℝ × ℝ)) (ts : List ℝ) : List (ℝ × ℝ) :=
  List.zipWith (fun r t => (r.1, r.2 * t)) rays ts

/-- fisx_multilayer.cpp:99-106: the beam behind the filters. -/
noncomputable def filterLoop (c : Config ℝ R) : List (Layer ℝ) → List (ℝ × ℝ) → Outcome (List (ℝ × ℝ))
  | [], rays => .ok rays
  | l :: rest, rays => do
    let ts ← layerTransmissions pf fuel L c l (rays.map Prod.fst) 90 []
    filterLoop c rest (attenuate rays ts)

/-- fisx_multilayer.cpp:108-115: the user filters. -/
noncomputable def userFilterLoop : List (TransmissionTable ℝ) → List (ℝ × ℝ) → List (ℝ × ℝ)
  | [], rays => rays
  | t :: rest, rays => userFilterLoop rest (attenuate rays (t.getTransmissions (rays.map Prod.fst)))

/-- fisx_multilayer.cpp:119-133: the geometric efficiencies, from layer `i` on. -/
noncomputable def geometricLoop (c : Config ℝ R) (use : Bool) : Nat → List (Layer ℝ) → Outcome (List ℝ)
  | _, [] => .ok []
  | i, _ :: rest => do
    let g ← (if use then Xrf.getGeometricEfficiency c (i : Int) else .ok 1)
    let r ← geometricLoop c use (i + 1) rest
    return g :: r

/-- What is used of the layers. -/
def layerData (sample : List (Layer ℝ)) (comps : List (SMap String ℝ)) (geoms : List ℝ) : List (LayerData ℝ) :=
  List.zipWith (fun l p => { density := l.density, thickness := l.thickness, composition := p.1, geometric := p.2 })
    sample (comps.zip geoms)

/-- The functions called in the loop over the rays. -/
noncomputable def envOf (srt : List (String × ℝ) → List (String × ℝ)) (c : Config ℝ R) (comps : List (SMap String ℝ))
    (geoms : List ℝ) : Env ℝ where
  layers := layerData c.sample comps geoms
  sinIn := Real.sin (c.alphaIn * (Real.pi / 180))
  sinOut := Real.sin (c.alphaOut * (Real.pi / 180))
  exp := Real.exp
  mu i e := do
    let l ← vget c.sample i
    let m ← vget comps i
    let r ← layerMu pf fuel L c l e m
    return r.total
  mus i es := do
    let l ← vget c.sample i
    let m ← vget comps i
    layerMus pf fuel L c l es m
  families i e := do
    let l ← vget c.sample i
    let m ← vget comps i
    layerFamilies pf fuel L srt c l e m
  excite el e w := do
    let x ← L.getElement el
    x.data.getFactors e w
  threshold el fam := Xrf.getEnergyThreshold L el fam
  transmission j e := do
    let l ← vget c.sample j
    let m ← vget comps j
    layerTransmission pf fuel L c l e c.alphaOut m
  attenuators := c.attenuators.map (fun l e => layerTransmission pf fuel L c l e 90 [])
  tables := c.userAttenuators.map (fun t e => t.getTransmission e)
  hasDetector := c.detector.layer.hasMaterial || decide (c.detector.layer.materialName.length > 0)
  intrinsic e := detectorIntrinsic pf fuel L c.detector.layer e
  escape e := detectorEscape pf fuel L c.detector.params e
  l0 := MathFn.deBoerL0
  x := MathFn.deBoerX

/-- fisx_multilayer.cpp:52-54: the beam given with the call, if it has rays, or the one of the configuration. -/
def usedBeam (c : Config ℝ R) (overwriting : Beam ℝ) : List (ℝ × ℝ) :=
  (if overwriting.rays.length < 1 then c.beam else overwriting).rays.map (fun r => (r.energy, r.weight))

/-- fisx_multilayer.cpp:40-1213, `getMultilayerFluorescence`. -/
noncomputable def fluorescence (srt : List (String × ℝ) → List (String × ℝ)) (c : Config ℝ R) (o : Options ℝ)
    (useGeometric : Bool) (overwriting : Beam ℝ) (reqs : List (Outcome Request)) : Outcome (Result ℝ) := do
  let comps ← compositions pf fuel L c c.sample
  let rays ← filterLoop pf fuel L c c.beamFilters (usedBeam c overwriting)
  let rays := userFilterLoop c.userBeamFilters rays
  let geoms ← geometricLoop c useGeometric 0 c.sample
  calculate (envOf pf fuel L srt c comps geoms) o reqs rays

end model

end Multilayer
end Fisx
