import Verif.Layer

/-!
# Model of `fisx::Detector` (/repo/src/fisx_detector.cpp, /repo/src/fisx_detector.h)
-/

namespace Fisx

/-- fisx_detector.h:119-126 on top of the `Layer` part. `R` is the type of an escape answer
(`map<string, map<string, double>>`), which the detector only stores and returns. -/
structure Detector (K R : Type) where
  layer : Layer K
  diameter : K
  distance : K
  energyThreshold : K
  intensityThreshold : K
  nThreshold : Int
  alphaIn : K
  cache : SMap String (SMap K R)

namespace Detector

variable {K R : Type} [Field K] [LinearOrder K]

/-- fisx_detector.cpp:35-45, the constructor. -/
def new (name : String) (density thickness funnyFactor : K) : Detector K R :=
  { layer := Layer.new name density thickness funnyFactor, diameter := 0, distance := 10,
    energyThreshold := 1 / 100, intensityThreshold := 1 / 10000000, nThreshold := 4, alphaIn := 90,
    cache := [] }

/-- Everything of the detector that `getEscape` hands to the library (fisx_detector.cpp:148-154 and
159-165): the composition source (`Layer::getComposition`, fisx_layer.cpp:96-106) and the thresholds. -/
structure EscapeParams (K : Type) where
  hasMaterial : Bool
  materialName : String
  material : SMap String K
  energyThreshold : K
  intensityThreshold : K
  nThreshold : Int
  alphaIn : K

/-- The current parameters. `getComposition` reads the material only when there is one, and the
material name only when there is none. -/
def params (d : Detector K R) : EscapeParams K :=
  { hasMaterial := d.layer.hasMaterial,
    materialName := if d.layer.hasMaterial then "" else d.layer.materialName,
    material := if d.layer.hasMaterial then d.layer.material.composition else [],
    energyThreshold := d.energyThreshold, intensityThreshold := d.intensityThreshold,
    nThreshold := d.nThreshold, alphaIn := d.alphaIn }

/-- fisx_detector.cpp:128-167, `getEscape`. `esc` is the library (`Elements::getEscape` on the given parameters
and energy). `lhsFirst` is the order in which the assignment of L148 evaluates its sides: before C++17 it is
unspecified; when the left side goes first an entry with a default constructed (empty) answer `dflt` exists while
the library runs, and stays if it throws. -/
def getEscape (lhsFirst : Bool) (dflt : R) (esc : EscapeParams K → K → Outcome R) (d : Detector K R)
    (energy : K) (label : String) (update : Bool) : Outcome R × Detector K R :=
  if label ≠ "" then
    let d := if update then { d with cache := [] } else d
    let hit := (d.cache.find? label).bind (fun c => c.find? energy)
    match hit with
    | some r => (.ok r, d)
    | none =>
      let put (r : R) : Detector K R :=
        { d with cache := d.cache.insert label (((d.cache.find? label).getD []).insert energy r) }
      match esc d.params energy with
      | .ok r => (.ok r, put r)
      | .throw e => (.throw e, if lhsFirst then put dflt else d)
      | .ub u => (.ub u, d)
      | .diverge => (.diverge, d)
  else (esc d.params energy, d)

/-- fisx_detector.cpp:89-98 over the reals. -/
noncomputable def setActiveArea (d : Detector ℝ R) (area : ℝ) : Outcome Unit × Detector ℝ R :=
  if area < 0 then (.throw .invalidArgument, d)
  else (.ok (), { d with diameter := 2 * Real.sqrt (area / Real.pi) })

/-- fisx_detector.cpp:82-87 over the reals. -/
noncomputable def getActiveArea (d : Detector ℝ R) : ℝ :=
  (1/4 * Real.pi) * (d.diameter * d.diameter)

/-- fisx_detector.cpp:100-107. -/
def setDiameter (d : Detector K R) (v : K) : Outcome Unit × Detector K R :=
  if v < 0 then (.throw .invalidArgument, d) else (.ok (), { d with diameter := v })

/-- fisx_detector.cpp:109-116. -/
def setDistance (d : Detector K R) (v : K) : Outcome Unit × Detector K R :=
  if v ≤ 0 then (.throw .invalidArgument, d) else (.ok (), { d with distance := v })

/-- The configuration calls of the detector (fisx_detector.h:52-116, and the inherited
`setDensity`/`setThickness`). -/
inductive Op (K : Type)
  | setMaterialName (n : String)          -- fisx_detector.cpp:47-51
  | setMaterial (m : Material K)          -- fisx_detector.cpp:53-57
  | setMinimumEscapePeakEnergy (v : K)    -- fisx_detector.cpp:59-63
  | setMinimumEscapePeakIntensity (v : K) -- fisx_detector.cpp:65-69
  | setMaximumNumberOfEscapePeaks (n : Int) -- fisx_detector.cpp:71-75
  | clearEscapePeakCache                  -- fisx_detector.cpp:77-80
  | setDiameter (v : K)
  | setDistance (v : K)
  | setDensity (v : K)
  | setThickness (v : K)
  | getEscape (energy : K) (label : String) (update : Bool)

/-- One configuration call or query (the lines are those of the constructors of `Op`). -/
def step (lhsFirst : Bool) (dflt : R) (lib : String → EscapeParams K → K → Outcome R)
    (d : Detector K R) : Op K → Outcome Unit × Detector K R
  | .setMaterialName n => (.ok (), { d with cache := [], layer := d.layer.setMaterialName n })
  | .setMaterial m => (.ok (), { d with cache := [], layer := d.layer.setMaterial m })
  | .setMinimumEscapePeakEnergy v => (.ok (), { d with energyThreshold := v, cache := [] })
  | .setMinimumEscapePeakIntensity v => (.ok (), { d with intensityThreshold := v, cache := [] })
  | .setMaximumNumberOfEscapePeaks n => (.ok (), { d with nThreshold := n, cache := [] })
  | .clearEscapePeakCache => (.ok (), { d with cache := [] })
  | .setDiameter v => d.setDiameter v
  | .setDistance v => d.setDistance v
  | .setDensity v => let r := d.layer.setDensity v; (r.1, { d with layer := r.2 })
  | .setThickness v => let r := d.layer.setThickness v; (r.1, { d with layer := r.2 })
  | .getEscape e label update =>
    let r := d.getEscape lhsFirst dflt (lib label) e label update
    ((match r.1 with | .ok _ => .ok () | .throw e => .throw e | .ub u => .ub u | .diverge => .diverge), r.2)

/-- A history of calls, exceptions being caught by the caller. -/
def run (lhsFirst : Bool) (dflt : R) (lib : String → EscapeParams K → K → Outcome R)
    (d : Detector K R) (ops : List (Op K)) : Detector K R :=
  ops.foldl (fun d op => (d.step lhsFirst dflt lib op).2) d

end Detector
end Fisx
