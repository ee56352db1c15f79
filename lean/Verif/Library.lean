import Verif.Material
import Verif.Element
import Verif.Formula

/-!
# Model of `fisx::Elements` (/repo/src/fisx_elements.cpp, /repo/src/fisx_elements.h)

The element and material library: names, materials, compositions, mixtures, peak families, escape peaks and their
cache. `parseFormula` (model in `Verif.Formula`) is the parameter `pf`.
Files of shell data are modelled in `Verif.Loader`, the adaptation of tables of mass attenuation coefficients in
`Verif.Install`. The constructors are in `Verif.Init`. Not modelled here: console output.
-/

namespace Fisx

/-- An element of the library: its name, its atomic mass and the data of `Verif.Element`. -/
structure LibElement (K : Type) where
  name : String
  mass : K
  data : Element K
deriving DecidableEq, Repr

/-- What identifies the content of the escape cache (fisx_elements.h:601-606). -/
structure EscapeKey (K : Type) where
  composition : SMap String K
  energyThreshold : K
  intensityThreshold : K
  nThreshold : Int
  alphaIn : K
  thickness : K
deriving DecidableEq, Repr

/-- fisx_elements.h:578-607, the data members (`elementDict`, `elementList`, `materialList`, the escape cache). -/
structure Library (K : Type) where
  dict : SMap String Nat
  elements : List (LibElement K)
  materials : List (Material K)
  escapeOn : Bool
  escape : SMap K (SMap String (Line K))
  escapeKey : EscapeKey K

/-- The attenuation of a mixture (result of fisx_elements.cpp:1049-1070). -/
structure Mix (K : Type) where
  energy : K
  coherent : K
  compton : K
  pair : K
  photoelectric : K
  total : K
deriving DecidableEq, Repr

/-- The sine of an angle in degrees (`std::sin(x * (3.141592653589793/180.))`). -/
class Trig (K : Type) where
  sinDeg : K → K

namespace Library

variable {K : Type} [Field K] [LinearOrder K]

/-- A library without elements and materials. The flag of the escape cache and the members that describe its content
are not initialised by the constructors: they are arguments. -/
def empty (on : Bool) (key : EscapeKey K) : Library K :=
  { dict := [], elements := [], materials := [], escapeOn := on, escape := [], escapeKey := key }

/-! ### Elements -/

/-- fisx_elements.cpp:252-263. -/
def isElementNameDefined (L : Library K) (n : String) : Bool :=
  if n.length = 0 then false else L.dict.mem n

/-- fisx_elements.cpp:265-277. -/
def getElementNames (L : Library K) : List String := L.elements.map LibElement.name

/-- fisx_elements.cpp:279-291 (and 293-299). -/
def getElement (L : Library K) (n : String) : Outcome (LibElement K) :=
  if L.isElementNameDefined n then
    match L.dict.find? n with
    | some i => vget L.elements i
    | none => .ub .derefEnd
  else .throw .invalidArgument

/-- fisx_elements.cpp:301-316. -/
def addElement (L : Library K) (e : LibElement K) : Outcome Unit × Library K :=
  match L.dict.find? e.name with
  | some i =>
    if i < L.elements.length then (.ok (), { L with elements := L.elements.set i e })
    else (.ub .outOfBounds, L)
  | none => (.ok (), { L with dict := L.dict.insert e.name L.elements.length, elements := L.elements ++ [e] })

/-- fisx_elements.cpp:182-233: the library of the predefined elements (their symbols, in fisx_defaultelementsinfo.h,
are distinct, so that filling the list and the dictionary is adding them one by one). -/
def ofElements (on : Bool) (key : EscapeKey K) (els : List (LibElement K)) : Library K :=
  els.foldl (fun L e => (L.addElement e).2) (empty on key)

/-- fisx_elements.cpp:2138-2246: the calls forwarded to an element (its caches). -/
def onElement [Trans K] (L : Library K) (n : String) (op : Element.Op K) : Outcome Unit × Library K :=
  if L.isElementNameDefined n then
    match L.dict.find? n with
    | some i =>
      match L.elements[i]? with
      | some e =>
        let r := e.data.step op
        (r.1, { L with elements := L.elements.set i { e with data := r.2 } })
      | none => (.ub .outOfBounds, L)
    | none => (.ub .derefEnd, L)
  else (.throw .invalidArgument, L)

/-! ### Formulas -/

/-- fisx_elements.cpp:1528-1542: the masses of the elements of a formula; `none` when an element is not known. -/
def masses (L : Library K) (f : List (String × K)) : Option (List (String × K)) :=
  match f with
  | [] => some []
  | (n, x) :: rest =>
    match L.dict.find? n with
    | none => none
    | some i =>
      match L.elements[i]? with
      | none => none
      | some e => (masses L rest).map (fun r => (n, x * e.mass) :: r)

/-- fisx_elements.cpp:1512-1548, `getCompositionFromFormula`. The indices of the dictionary are always valid (proved:
`inv_run`), the `none` of the inner match of `masses` is not reached. -/
def formula (pf : String → Outcome (SMap String K)) (L : Library K) (name : String) : Outcome (SMap String K) := do
  let f ← pf name
  match L.masses f with
  | none => return []
  | some m => return m.map (fun e => (e.1, e.2 / SMap.total m))

/-! ### Materials -/

/-- fisx_elements.cpp:2110-2122: the index of a material, the number of materials when there is none. -/
def materialIndex (L : Library K) (n : String) : Nat := L.materials.findIdx (fun m => m.name == n)

/-- fisx_elements.cpp:1261-1273. -/
def getMaterialNames (L : Library K) : List String := L.materials.map Material.name

/-- fisx_elements.cpp:1247-1259 (and 1275-1287). -/
def getMaterial (L : Library K) (n : String) : Outcome (Material K) :=
  if L.materialIndex n ≥ L.materials.length then .throw .invalidArgument
  else vget L.materials (L.materialIndex n)

/-- fisx_elements.cpp:1290-1321. -/
def addMaterialObject (L : Library K) (m : Material K) (errorOnReplace : Bool) : Outcome Unit × Library K :=
  let i := L.materialIndex m.name
  if i < L.materials.length then
    if errorOnReplace then (.throw .invalidArgument, L)
    else (.ok (), { L with materials := L.materials.set i m })
  else (.ok (), { L with materials := L.materials ++ [m] })

/-- fisx_elements.cpp:2125-2136. -/
def removeMaterial (L : Library K) (n : String) : Outcome Unit × Library K :=
  let i := L.materialIndex n
  if i ≥ L.materials.length then (.throw .invalidArgument, L)
  else (.ok (), { L with materials := L.materials.eraseIdx i })

/-- fisx_elements.cpp:1323-1326. -/
def removeMaterials (L : Library K) : Library K := { L with materials := [] }

/-- fisx_elements.cpp:1216-1230. -/
def setMaterialComposition (L : Library K) (n : String) (names : List String) (amounts : List K) :
    Outcome Unit × Library K :=
  let i := L.materialIndex n
  match L.materials[i]? with
  | none => (.throw .invalidArgument, L)
  | some m =>
    let r := m.setComposition names amounts
    (r.1, { L with materials := L.materials.set i r.2 })

/-- fisx_elements.cpp:1232-1245. -/
def setMaterialCompositionMap (L : Library K) (n : String) (c : SMap String K) : Outcome Unit × Library K :=
  let i := L.materialIndex n
  match L.materials[i]? with
  | none => (.throw .invalidArgument, L)
  | some m =>
    let r := m.setCompositionMap c
    (r.1, { L with materials := L.materials.set i r.2 })

/-- fisx_elements.cpp:1169-1183: a material that is not added to the library. -/
def createMaterial (pf : String → Outcome (SMap String K)) (L : Library K) (name : String) (density thickness : K)
    (comment : String) : Outcome (Material K) :=
  match (Material.new : Material K).init name density thickness comment with
  | (.ok (), m) => do
    let c ← L.formula pf name
    if c.length > 0 then
      match m.setCompositionMap c with
      | (.ok (), m) => .ok m
      | (.throw e, _) => .throw e
      | (.ub u, _) => .ub u
      | (.diverge, _) => .diverge
    else .ok m
  | (.throw e, _) => .throw e
  | (.ub u, _) => .ub u
  | (.diverge, _) => .diverge

/-- fisx_elements.cpp:1193-1204: the first part of `addMaterial(name, ...)`. -/
def makeRoom (L : Library K) (name : String) (errorOnReplace : Bool) : Outcome Unit × Library K :=
  if L.materialIndex name < L.materials.length then
    if errorOnReplace then (.throw .invalidArgument, L) else L.removeMaterial name
  else (.ok (), L)

/-- fisx_elements.cpp:1185-1214, `addMaterial(name, density, thickness, comment, errorOnReplace)`. -/
def addMaterial (pf : String → Outcome (SMap String K)) (L : Library K) (name : String) (density thickness : K)
    (comment : String) (errorOnReplace : Bool) : Outcome Unit × Library K :=
  match L.makeRoom name errorOnReplace with
  | (.ok (), L) =>
    match (Material.new : Material K).init name density thickness comment with
    | (.ok (), m) =>
      let L := { L with materials := L.materials ++ [m] }
      match L.formula pf name with
      | .ok c => if c.length > 0 then L.setMaterialCompositionMap name c else (.ok (), L)
      | .throw e => (.throw e, L)
      | .ub u => (.ub u, L)
      | .diverge => (.diverge, L)
    | (o, _) => (o, L)
  | (o, L) => (o, L)

/-! ### Compositions -/

/-- `m[k] += v` (after `m[k] = 0` for a new key). -/
def addTo (m : SMap String K) (k : String) (v : K) : SMap String K := m.insert k ((m.find? k).getD 0 + v)

/-- fisx_elements.cpp:1382-1389, 1409-1416, 1489-1496: `w` times a composition is added. -/
def addScaled (acc c : SMap String K) (w : K) : SMap String K :=
  c.foldl (fun acc e => addTo acc e.1 (e.2 * w)) acc

/-- fisx_elements.cpp:1375-1390, 1402-1417, 1482-1497: the loop over the components; empty as soon as the
composition of a component is. -/
def mixLoop (f : String → Outcome (SMap String K)) (items : List (String × K)) (acc : SMap String K) :
    Outcome (SMap String K) :=
  match items with
  | [] => .ok acc
  | (n, w) :: rest => do
    let c ← f n
    if c = [] then return [] else mixLoop f rest (addScaled acc c w)

/-- fisx_elements.cpp:1363-1372, 1419-1428, 1498-1508. -/
def normalise (c : SMap String K) : SMap String K := c.map (fun e => (e.1, e.2 / SMap.total c))

/-- The material with a name. -/
def lookup (L : Library K) (n : String) : Option (Material K) := L.materials.find? (fun m => m.name == n)

/-- fisx_elements.cpp:1328-1392, `getComposition(name)`. The depth of the recursion is bounded by the fuel. -/
def comp (pf : String → Outcome (SMap String K)) (L : Library K) (fuel : Nat) (name : String) :
    Outcome (SMap String K) :=
  match fuel with
  | 0 => .diverge
  | fuel + 1 => do
    let r ← L.formula pf name
    if r.length > 0 then return r
    else match L.lookup name with
      | none => return []
      | some m =>
        if m.composition.length < 1 then .throw .invalidArgument
        else mixLoop (comp pf L fuel) (normalise m.composition) []

/-- fisx_elements.cpp:1456-1472: the composition of the material in the supplied list, or that of the library. -/
def ownComposition (pf : String → Outcome (SMap String K)) (L : Library K) (extra : List (Material K)) (fuel : Nat)
    (name : String) : Outcome (SMap String K) :=
  match extra.find? (fun m => m.name == name) with
  | none => comp pf L fuel name
  | some m => .ok m.composition

/-- fisx_elements.cpp:1432-1510, `getComposition(name, additionalMaterials)`. -/
def compWith (pf : String → Outcome (SMap String K)) (L : Library K) (extra : List (Material K)) (fuel : Nat)
    (name : String) : Outcome (SMap String K) :=
  match fuel with
  | 0 => .diverge
  | fuel + 1 => do
    let r ← L.formula pf name
    if r.length > 0 then return r
    else if extra.length = 0 then comp pf L fuel name
    else do
      let t ← ownComposition pf L extra fuel name
      if t.length < 1 then .throw .invalidArgument
      else do
        let c ← mixLoop (compWith pf L extra fuel) t []
        return normalise c

/-- fisx_elements.cpp:1394-1430, `getComposition(map, additionalMaterials)`. -/
def compMap (pf : String → Outcome (SMap String K)) (L : Library K) (extra : List (Material K)) (fuel : Nat)
    (input : SMap String K) : Outcome (SMap String K) := do
  let c ← mixLoop (compWith pf L extra fuel) input []
  return normalise c

/-! ### Mixtures -/

/-- fisx_elements.cpp:1097-1125: the amounts of the elements and the total of the input amounts. -/
def amountsLoop (pf : String → Outcome (SMap String K)) (L : Library K) (fuel : Nat) (items : List (String × K))
    (acc : SMap String K) (total : K) : Outcome (SMap String K × K) :=
  match items with
  | [] => .ok (acc, total)
  | (n, w) :: rest =>
    if w < 0 then .throw .invalidArgument
    else do
      let c ← comp pf L fuel n
      if c.length < 1 then .throw .invalidArgument
      else amountsLoop pf L fuel rest (addScaled acc c w) (total + w)

/-- fisx_elements.cpp:1088-1131. -/
def amounts (pf : String → Outcome (SMap String K)) (L : Library K) (fuel : Nat) (input : SMap String K)
    (isComposition : Bool) : Outcome (SMap String K × K) :=
  if isComposition then .ok (input, 1)
  else do
    let r ← amountsLoop pf L fuel input [] 0
    if r.2 ≤ 0 then .throw .invalidArgument else return r

variable [Trans K]

/-- fisx_elements.cpp:1148-1159: the sums over the elements. -/
def mixSum (L : Library K) (total energy : K) (items : List (String × K)) (acc : Mix K) : Outcome (Mix K) :=
  match items with
  | [] => .ok acc
  | (n, w) :: rest =>
    match L.dict.find? n with
    | none => .ub .derefEnd
    | some i => do
      let e ← vget L.elements i
      let m ← e.data.getMu energy
      mixSum L total energy rest { acc with
        coherent := acc.coherent + m.coherent * (w / total), compton := acc.compton + m.compton * (w / total),
        pair := acc.pair + m.pair * (w / total), photoelectric := acc.photoelectric + m.photoelectric * (w / total) }

/-- fisx_elements.cpp:1049-1070 with 1072-1165 for one energy: `getMassAttenuationCoefficients(map, energy)`. -/
def mixMu (pf : String → Outcome (SMap String K)) (L : Library K) (fuel : Nat) (input : SMap String K) (energy : K)
    (isComposition : Bool) : Outcome (Mix K) := do
  let a ← amounts pf L fuel input isComposition
  let s ← mixSum L a.2 energy a.1
    { energy := energy, coherent := 0, compton := 0, pair := 0, photoelectric := 0, total := 0 }
  return { s with total := (s.coherent + s.compton) + s.pair + s.photoelectric }

/-- fisx_elements.cpp:1141-1163: one energy after the other. -/
def mixList (L : Library K) (a : SMap String K × K) (energies : List K) : Outcome (List (Mix K)) :=
  match energies with
  | [] => .ok []
  | x :: rest => do
    let s ← mixSum L a.2 x a.1 { energy := x, coherent := 0, compton := 0, pair := 0, photoelectric := 0, total := 0 }
    let r ← mixList L a rest
    return { s with total := (s.coherent + s.compton) + s.pair + s.photoelectric } :: r

/-- fisx_elements.cpp:1072-1165, `getMassAttenuationCoefficients(map, energies)`; the vectors of the result are given
energy by energy. -/
def mixMus (pf : String → Outcome (SMap String K)) (L : Library K) (fuel : Nat) (input : SMap String K)
    (energies : List K) (isComposition : Bool) : Outcome (List (Mix K)) := do
  let a ← amounts pf L fuel input isComposition
  mixList L a energies

/-- The coefficients of an element, as those of a mixture (fisx_elements.cpp:1018). -/
def ofMu (m : Mu K) : Mix K :=
  { energy := m.energy, coherent := m.coherent, compton := m.compton, pair := m.pair,
    photoelectric := m.photoelectric, total := m.total }

/-- fisx_elements.cpp:998-1020, `getMassAttenuationCoefficients(name, energy)`. -/
def nameMu (pf : String → Outcome (SMap String K)) (L : Library K) (fuel : Nat) (name : String) (energy : K) :
    Outcome (Mix K) :=
  if L.dict.mem name then do
    let e ← L.getElement name
    let m ← e.data.getMu energy
    return ofMu m
  else do
    let c ← comp pf L fuel name
    if c.length < 1 then .throw .invalidArgument else mixMu pf L fuel c energy false

/-! ### Peak families -/

omit [Trans K] in
/-- fisx_elements.cpp:1886-1896: the shells of one element. -/
def familiesOf (e : LibElement K) (shells : List Str) : Outcome (List (String × K)) :=
  match shells with
  | [] => .ok []
  | s :: rest =>
    if s.take 1 = ['K'] ∨ s.take 1 = ['L'] ∨ s.take 1 = ['M'] then
      match e.data.shells.find? s with
      | none => .throw .invalidArgument
      | some sh => do
        let r ← familiesOf e rest
        -- `["omega"]` on a copy of the constants: 0 when there is no such entry
        if Element.at0 sh.constants "omega".toList > 0 then
          match e.data.binding.find? s with
          | none => .ub .derefEnd
          | some b => return (e.name ++ " " ++ String.ofList s, b) :: r
        else return r
    else familiesOf e rest

omit [Trans K] in
/-- fisx_elements.cpp:1879-1898. The name written is the one asked for, which is that of the element. -/
def familiesLoop (L : Library K) (names : List String) (energy : K) : Outcome (List (String × K)) :=
  match names with
  | [] => .ok []
  | n :: rest => do
    let e ← L.getElement n
    let f ← familiesOf e (e.data.getExcitedShells energy)
    let r ← familiesLoop L rest energy
    return f ++ r

omit [Trans K] in
/-- fisx_elements.cpp:1870-1904, `getPeakFamilies(elements, energy)`; `srt` is `std::sort` with the comparison of the
energies (fisx_elements.h:616-620), which orders equal energies in any way. -/
def peakFamilies (srt : List (String × K) → List (String × K)) (L : Library K) (names : List String) (energy : K) :
    Outcome (List (String × K)) := do
  let r ← familiesLoop L names energy
  return srt r

omit [Trans K] in
/-- fisx_elements.cpp:1941-1961, `getPeakFamilies(name, energy)`. -/
def peakFamiliesOf (pf : String → Outcome (SMap String K)) (srt : List (String × K) → List (String × K)) (L : Library K)
    (fuel : Nat) (name : String) (energy : K) : Outcome (List (String × K)) := do
  let c ← comp pf L fuel name
  if c.length < 1 then .throw .invalidArgument else peakFamilies srt L c.keys energy

/-! ### Escape peaks -/

variable [Trig K]

omit [Trans K] in
/-- fisx_elements.cpp:2043-2052. -/
def sinAlpha (alphaIn : K) : K :=
  if alphaIn = 90 then 1 else if Trig.sinDeg alphaIn < 0 then - Trig.sinDeg alphaIn else Trig.sinDeg alphaIn

/-- fisx_elements.cpp:2056-2066. -/
def intrinsicEfficiency (muIncident thickness sinA : K) : K :=
  if thickness > 0 then 1 - Trans.exp (-muIncident * thickness / sinA) else 1

/-- fisx_elements.cpp:2089-2091: rate of an escape peak per incident photon. -/
def escapeRate (sinA muIncident muFluorescence rate : K) : K :=
  let t := sinA * (muFluorescence / muIncident)
  rate * ((1 / 2 / muIncident) * (1 - t * Trans.log (1 + 1 / t)))

/-- fisx_elements.cpp:2090: the name of an escape peak. -/
def escapeName (element : String) (line : Str) : String := element ++ "_" ++ String.ofList line ++ "esc"

/-- fisx_elements.cpp:2080-2105: the lines of one element. -/
def escapeLines (pf : String → Outcome (SMap String K)) (L : Library K) (fuel : Nat) (key : EscapeKey K)
    (energy muIncident : K) (element : String) (lines : List (Str × Factor K)) (acc : SMap String (Line K)) :
    Outcome (SMap String (Line K)) :=
  match lines with
  | [] => .ok acc
  | (t, f) :: rest => do
    let mf ← mixMu pf L fuel key.composition f.energy false
    let rate := escapeRate (sinAlpha key.alphaIn) muIncident mf.total f.rate
    let final := if key.thickness > 0 then
      rate / intrinsicEfficiency muIncident key.thickness (sinAlpha key.alphaIn) else rate
    escapeLines pf L fuel key energy muIncident element rest
      (if rate > key.intensityThreshold then
        acc.insert (escapeName element t) { energy := energy - f.energy, rate := final } else acc)

/-- fisx_elements.cpp:2067-2106: the elements of the detector. -/
def escapeElements (pf : String → Outcome (SMap String K)) (L : Library K) (fuel : Nat) (key : EscapeKey K)
    (energy muIncident : K) (items : List (String × K)) (acc : SMap String (Line K)) :
    Outcome (SMap String (Line K)) :=
  match items with
  | [] => .ok acc
  | (n, w) :: rest => do
    let e ← L.getElement n
    let f ← e.data.getFactors energy w
    let acc ← escapeLines pf L fuel key energy muIncident n f acc
    escapeElements pf L fuel key energy muIncident rest acc

/-- fisx_elements.cpp:2043-2107: the escape peaks, not looking at the cache. -/
def computeEscape (pf : String → Outcome (SMap String K)) (L : Library K) (fuel : Nat) (key : EscapeKey K)
    (energy : K) : Outcome (SMap String (Line K)) := do
  let mi ← mixMu pf L fuel key.composition energy false
  escapeElements pf L fuel key energy mi.total key.composition []

omit [Field K] [Trans K] [Trig K] in
/-- fisx_elements.cpp:2254-2304. The numbers are not NaN. -/
def escapeCompatible (L : Library K) (key : EscapeKey K) : Bool :=
  L.escapeOn && decide (L.escape.length > 0) && decide (key = L.escapeKey)

/-- fisx_elements.cpp:2010-2108, `getEscape`. -/
def getEscape (pf : String → Outcome (SMap String K)) (L : Library K) (fuel : Nat) (key : EscapeKey K) (energy : K) :
    Outcome (SMap String (Line K)) :=
  if L.escapeCompatible key then
    match L.escape.find? energy with
    | some r => .ok r
    | none => computeEscape pf L fuel key energy
  else computeEscape pf L fuel key energy

/-- fisx_elements.cpp:2329-2345, the loop of `updateEscapeCache`. -/
def updateEscapeLoop (pf : String → Outcome (SMap String K)) (fuel : Nat) (key : EscapeKey K) (energies : List K)
    (L : Library K) : Outcome Unit × Library K :=
  match energies with
  | [] => (.ok (), L)
  | x :: rest =>
    if L.escape.mem x then updateEscapeLoop pf fuel key rest { L with escapeKey := key }
    else match L.getEscape pf fuel key x with
      | .ok r => updateEscapeLoop pf fuel key rest { L with escape := L.escape.insert x r, escapeKey := key }
      | .throw e => (.throw e, L)
      | .ub u => (.ub u, L)
      | .diverge => (.diverge, L)

omit [Field K] [LinearOrder K] [Trans K] [Trig K] in
/-- fisx_elements.cpp:2248-2251. -/
def clearEscapeCache (L : Library K) : Library K := { L with escape := [] }

/-- fisx_elements.cpp:2306-2346, `updateEscapeCache`. -/
def updateEscapeCache (pf : String → Outcome (SMap String K)) (L : Library K) (fuel : Nat) (key : EscapeKey K)
    (energies : List K) : Outcome Unit × Library K :=
  updateEscapeLoop pf fuel key energies (if L.escapeCompatible key then L else L.clearEscapeCache)

/-- The mutating API. -/
inductive Op (K : Type)
  | addElement (e : LibElement K)
  | onElement (name : String) (op : Element.Op K)
  | addMaterialObject (m : Material K) (errorOnReplace : Bool)
  | addMaterial (name : String) (density thickness : K) (comment : String) (errorOnReplace : Bool)
  | removeMaterial (name : String)
  | removeMaterials
  | setMaterialComposition (name : String) (names : List String) (amounts : List K)
  | setMaterialCompositionMap (name : String) (c : SMap String K)
  | setEscapeCacheEnabled (flag : Bool)
  | clearEscapeCache
  | updateEscapeCache (key : EscapeKey K) (energies : List K)

/-- One call (`fuel`: the depth of the stack). -/
def step (pf : String → Outcome (SMap String K)) (fuel : Nat) (L : Library K) : Op K → Outcome Unit × Library K
  | .addElement e => L.addElement e
  | .onElement n op => L.onElement n op
  | .addMaterialObject m f => L.addMaterialObject m f
  | .addMaterial n d t c f => L.addMaterial pf n d t c f
  | .removeMaterial n => L.removeMaterial n
  | .removeMaterials => (.ok (), L.removeMaterials)
  | .setMaterialComposition n ns as => L.setMaterialComposition n ns as
  | .setMaterialCompositionMap n c => L.setMaterialCompositionMap n c
  | .setEscapeCacheEnabled f => (.ok (), { L with escapeOn := f })
  | .clearEscapeCache => (.ok (), L.clearEscapeCache)
  | .updateEscapeCache k es => L.updateEscapeCache pf fuel k es

/-- A history of calls; exceptions are caught by the caller, who carries on. -/
def run (pf : String → Outcome (SMap String K)) (fuel : Nat) (L : Library K) (ops : List (Op K)) : Library K :=
  ops.foldl (fun L op => (L.step pf fuel op).2) L

end Library

/-- `parseFormula` on strings (fisx_elements.cpp:1612-1830). -/
def Formula.parser {K : Type} [Field K] [LinearOrder K] (sh : K → List Char) (fuel : Nat) (s : String) :
    Outcome (SMap String K) := Formula.parse sh fuel s.toList

end Fisx
