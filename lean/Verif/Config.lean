import Verif.Ini
import Verif.Beam
import Verif.Material
import Verif.TransmissionTable
import Verif.Detector

/-!
# Model of `fisx::XRFConfig` (/repo/src/fisx_xrfconfig.cpp, /repo/src/fisx_xrfconfig.h)

and of the string conversions of `fisx::SimpleIni` it uses (/repo/src/fisx_simpleini.h:90-135). The extraction of a
`double` or an `int` from a string stream is a parameter (`none` when it fails). `std::sort` is a parameter as in
`Verif/Beam.lean`. The printing of the configuration is not modelled.
-/

namespace Fisx

namespace Ini

/-- `std::getline(stream, item, sep)` until the end of a string; `cur` is the current item. -/
def itemsFrom (sep : Char) (cur : Str) : Str → List Str
  | [] => if cur = [] then [] else [cur]
  | c :: t => if c = sep then cur :: itemsFrom sep [] t else itemsFrom sep (cur ++ [c]) t

/-- fisx_simpleini.h:112-116: the items of a string. -/
def items (sep : Char) (s : Str) : List Str := itemsFrom sep [] s

/-- `stream >> s` for a `std::string`: the first word, failing when there is none. -/
def word (s : Str) : Option Str :=
  let t := s.dropWhile isSpace
  if t = [] then none else some (t.takeWhile (fun c => !isSpace c))

/-- fisx_simpleini.h:106-123, with the conversion of an item as a parameter. -/
def multipleValues {α : Type} (conv : Str → Option α) (sep : Char) (dflt : α) (s : Str) : List α :=
  (items sep s).map (fun i => (conv i).getD dflt)

end Ini

/-- The extraction operators of string streams. -/
structure Conv (K : Type) where
  num : Str → Option K
  int : Str → Option Int

/-- fisx_xrfconfig.h:151-164, the data members. `referenceLayer` has no value until it is set. -/
structure Config (K R : Type) where
  beam : Beam K
  materials : List (Material K)
  beamFilters : List (Layer K)
  sample : List (Layer K)
  attenuators : List (Layer K)
  userBeamFilters : List (TransmissionTable K)
  userAttenuators : List (TransmissionTable K)
  referenceLayer : Option Int
  alphaIn : K
  alphaOut : K
  scatteringAngle : K
  detector : Detector K R

namespace Config

variable {K R : Type} [Field K] [LinearOrder K]

/-- fisx_detector.h:48-50, the default arguments of the constructor. -/
def defaultDetector : Detector K R := Detector.new "" 0 0 1

/-- fisx_xrfconfig.cpp:37-40. -/
def new : Config K R :=
  { beam := Beam.new, materials := [], beamFilters := [], sample := [], attenuators := [], userBeamFilters := [],
    userAttenuators := [], referenceLayer := none, alphaIn := 45, alphaOut := 45, scatteringAngle := 90,
    detector := defaultDetector }

/-- fisx_xrfconfig.cpp:42-47. -/
def setGeometry (c : Config K R) (alphaIn alphaOut scatteringAngle : K) : Config K R :=
  { c with alphaIn := alphaIn, alphaOut := alphaOut, scatteringAngle := scatteringAngle }

/-- fisx_xrfconfig.cpp:548-556. -/
def setSample (c : Config K R) (layers : List (Layer K)) (referenceLayer : Int) : Outcome Unit × Config K R :=
  if referenceLayer ≥ (layers.length : Int) then (.throw .invalidArgument, c)
  else (.ok (), { c with sample := layers, referenceLayer := some referenceLayer })

/-! ### readConfigurationFromFile -/

/-- `v.erase(v.begin() + i)`. -/
def eraseAt {α : Type} (v : List α) (i : Nat) : Outcome (List α) :=
  if i < v.length then .ok (v.eraseIdx i) else .ub .outOfBounds

/-- The four lists of the beam. -/
structure BeamLists (K : Type) where
  energy : List K
  weight : List K
  scatter : List Int

/-- fisx_xrfconfig.cpp:147-176, the loop from the last flag to the first one (`n` flags left). -/
def beamLoop (flags : List Int) : Nat → BeamLists K → Outcome (BeamLists K)
  | 0, b => .ok b
  | i + 1, b => do
    let f ← vget flags i
    let e ← (if f > 0 then vget b.energy i else .ok (-666))
    if f > 0 ∧ e ≠ -666 then do
      let e ← vget b.energy i
      if e ≤ 0 then .throw .invalidArgument
      else do
        let w ← vget b.weight i
        if w < 0 then .throw .invalidArgument
        else do
          let s ← vget b.scatter i
          beamLoop flags i { b with scatter := if s < 0 then b.scatter.set i 0 else b.scatter }
    else do
      let energy ← eraseAt b.energy i
      let weight ← eraseAt b.weight i
      let scatter ← eraseAt b.scatter i
      beamLoop flags i { energy := energy, weight := weight, scatter := scatter }

/-- `sectionContents[key]` on a map of strings. -/
def text (m : SMap Str Str) (key : Str) : Str := (m.find? key).getD []

/-- fisx_xrfconfig.cpp:112-176. -/
def beamLists (cv : Conv K) (fit : SMap Str Str) : Outcome (BeamLists K) :=
  let energy := Ini.multipleValues cv.num ',' (-666) (text fit "energy".toList)
  let weight := Ini.multipleValues cv.num ',' (-1) (text fit "energyweight".toList)
  let scatter := Ini.multipleValues cv.int ',' (-1) (text fit "energyscatter".toList)
  let flags := Ini.multipleValues cv.int ',' 0 (text fit "energyflag".toList)
  let weight := if weight.length = 0 then List.replicate energy.length 1 else weight
  let scatter := if scatter.length = 0 then List.replicate energy.length 1 else scatter
  let flags := if flags.length = 0 then List.replicate energy.length 1 else flags
  beamLoop flags flags.length { energy := energy, weight := weight, scatter := scatter }

/-- fisx_xrfconfig.cpp:184-188: the variables shared by the iterations over the materials; the two numbers have no
value at the start. -/
structure MatVars (K : Type) where
  comment : Str
  density : Option K
  thickness : Option K
  compounds : List Str
  fractions : List K

/-- The start of the loop. -/
def MatVars.start : MatVars K :=
  { comment := [], density := none, thickness := none, compounds := [], fractions := [] }

/-- fisx_xrfconfig.cpp:203-229: one entry of the section of a material. -/
def matEntry (cv : Conv K) (v : MatVars K) (e : Str × Str) : MatVars K :=
  let key := e.1.upper
  if key = "DENSITY".toList then { v with density := some ((cv.num e.2).getD (-1)) }
  else if key = "THICKNESS".toList then { v with thickness := some ((cv.num e.2).getD (-1)) }
  else if key = "COMPOUNDLIST".toList then { v with compounds := Ini.multipleValues Ini.word ',' [] e.2 }
  else if key = "COMPOUNDFRACTION".toList ∨ key = "COMPOUNDFRACTIONS".toList then
    { v with fractions := Ini.multipleValues cv.num ',' (-1) e.2 }
  else { v with comment := e.2 }

/-- A variable that may have no value. -/
def value (x : Option K) : Outcome K :=
  match x with
  | some v => .ok v
  | none => .ub .uninitialised

/-- `splitString[1]` for a section name (fisx_xrfconfig.cpp:197-200, 231). -/
def secondName (section_ : Str) : Outcome String := do
  let s ← vget (Ini.multipleValues Ini.word '.' [] section_) 1
  return String.ofList s

/-- fisx_xrfconfig.cpp:231-232: the material made from the variables. -/
def matMake (section_ : Str) (v : MatVars K) : Outcome (Material K) := do
  let name ← secondName section_
  let density ← value v.density
  let thickness ← value v.thickness
  let m ← Material.mk? name density thickness (String.ofList v.comment)
  match m.setComposition (v.compounds.map String.ofList) v.fractions with
  | (.ok _, m) => .ok m
  | (.throw e, _) => .throw e
  | (.ub u, _) => .ub u
  | (.diverge, _) => .diverge

/-- fisx_xrfconfig.cpp:192-234: the loop; the materials made before an exception are kept. -/
def matLoop (cv : Conv K) (r : Ini.Reader) : List Str → MatVars K → List (Material K) →
    Outcome Unit × List (Material K)
  | [], _, done => (.ok (), done)
  | s :: rest, v, done =>
    let v := (Ini.readSection r s true).1.foldl (matEntry cv) v
    match matMake s v with
    | .ok m => matLoop cv r rest v (done ++ [m])
    | .throw e => (.throw e, done)
    | .ub u => (.ub u, done)
    | .diverge => (.diverge, done)

/-- fisx_xrfconfig.cpp:242-245 (298-301): the variables of the user tables; the flag and the comment are reset at each
iteration, the lists are not. -/
structure TabVars (K : Type) where
  comment : Str
  useFlag : K
  energy : List K
  transmission : List K

/-- fisx_xrfconfig.cpp:262-282 (318-338): one entry. -/
def tabEntry (cv : Conv K) (v : TabVars K) (e : Str × Str) : TabVars K :=
  let key := e.1.upper
  if key = "ENERGY".toList then { v with energy := Ini.multipleValues cv.num ',' (-1) e.2 }
  else if key = "TRANSMISSION".toList then { v with transmission := Ini.multipleValues cv.num ',' (-1) e.2 }
  else if key = "USE".toList then { v with useFlag := (cv.num e.2).getD 0 }
  else { v with comment := e.2 }

/-- fisx_xrfconfig.cpp:286-287 (342-343). -/
def tabMake (section_ : Str) (v : TabVars K) : Outcome (TransmissionTable K) := do
  let name ← secondName section_
  match (TransmissionTable.new "" "").setLists v.energy v.transmission name (String.ofList v.comment) with
  | (.ok _, t) => .ok t
  | (.throw e, _) => .throw e
  | (.ub u, _) => .ub u
  | (.diverge, _) => .diverge

/-- fisx_xrfconfig.cpp:249-290 (305-346): the loop. -/
def tabLoop (cv : Conv K) (r : Ini.Reader) : List Str → TabVars K → List (TransmissionTable K) →
    Outcome Unit × List (TransmissionTable K)
  | [], _, done => (.ok (), done)
  | s :: rest, v, done =>
    let v := (Ini.readSection r s true).1.foldl (tabEntry cv) { v with useFlag := 0, comment := [] }
    if v.useFlag > 0 then
      match tabMake s v with
      | .ok t => tabLoop cv r rest v (done ++ [t])
      | .throw e => (.throw e, done)
      | .ub u => (.ub u, done)
      | .diverge => (.diverge, done)
    else tabLoop cv r rest v done

/-- fisx_xrfconfig.cpp:379-386 (and 412-419, 444-451, 482-489): the material of a layer, by name and then each material
of the configuration with that name. -/
def dress (materials : List (Material K)) (l : Layer K) (name : String) : Layer K :=
  (materials.filter (fun m => m.name = name)).foldl (fun l m => l.setMaterial m) (l.setMaterialName name)

/-- fisx_xrfconfig.cpp:378-386: a layer from the lists of an entry; `funny` is the position of the factor, if read. -/
def makeLayer (materials : List (Material K)) (key : Str) (nums : List K) (words : List Str) (funny : Option Nat) :
    Outcome (Layer K) := do
  let density ← vget nums 2
  let thickness ← vget nums 3
  let factor ← (match funny with
    | some i => vget nums i
    | none => .ok 1)
  let name ← vget words 1
  return dress materials (Layer.new (String.ofList key) density thickness factor) (String.ofList name)

/-- The variables of the loop over the attenuators: the configuration and `multilayerSample`. -/
structure AttState (K R : Type) where
  config : Config K R
  multilayer : Bool

/-- fisx_xrfconfig.cpp:363-456: one entry of the attenuators. -/
def attEntry (cv : Conv K) (s : AttState K R) (e : Str × Str) : Outcome (AttState K R) :=
  let nums := Ini.multipleValues cv.num ',' (-1) e.2
  let words := Ini.multipleValues Ini.word ',' [] e.2
  let c := s.config
  match nums with
  | [] => .ok s
  | n0 :: _ =>
    if n0 > 0 then
      if e.1.take (e.1.length - 1) = "BeamFilter".toList then do
        let l ← makeLayer c.materials e.1 nums words (some 4)
        return { s with config := { c with beamFilters := c.beamFilters ++ [l] } }
      else if words.length = 8 then do
        let n4 ← vget nums 4
        let n5 ← vget nums 5
        let n6 ← vget nums 6
        let n7 ← vget nums 7
        let c := if n6 > 0 then c.setGeometry n4 n5 n7 else c.setGeometry n4 n5 (n4 + n5)
        let w ← vget words 1
        if w = "MULTILAYER".toList then return { config := c, multilayer := true }
        else do
          let l ← makeLayer c.materials e.1 nums words none
          return { s with config := { c with sample := c.sample ++ [l] } }
      else if e.1.take 8 = "Detector".toList then do
        let l ← makeLayer c.materials e.1 nums words (some 4)
        return { s with config := { c with detector := { (defaultDetector : Detector K R) with layer := l } } }
      else do
        let l ← makeLayer c.materials e.1 nums words (some 4)
        return { s with config := { c with attenuators := c.attenuators ++ [l] } }
    else .ok s

/-- fisx_xrfconfig.cpp:360-457: the loop. (The configuration reached when an exception leaves it is not kept by this
model: no entry throws, only undefined behaviour can stop it.) -/
def attLoop (cv : Conv K) : List (Str × Str) → AttState K R → Outcome (AttState K R)
  | [], s => .ok s
  | e :: rest, s => do
    let s ← attEntry cv s e
    attLoop cv rest s

/-- fisx_xrfconfig.cpp:466-492: the layers of a multilayer sample. -/
def layerLoop (cv : Conv K) (materials : List (Material K)) : List (Str × Str) → List (Layer K) →
    Outcome (List (Layer K))
  | [], done => .ok done
  | e :: rest, done =>
    match Ini.multipleValues cv.num ',' (-1) e.2 with
    | [] => layerLoop cv materials rest done
    | n0 :: nums =>
      if n0 > 0 then do
        let l ← makeLayer materials e.1 (n0 :: nums) (Ini.multipleValues Ini.word ',' [] e.2) none
        layerLoop cv materials rest (done ++ [l])
      else layerLoop cv materials rest done

/-- fisx_xrfconfig.cpp:498-511; `setArea` is `Detector::setActiveArea`, a parameter because of its square root (over
the reals it is `Detector.setActiveArea`). -/
def concLoop (setArea : Detector K R → K → Outcome Unit × Detector K R) (cv : Conv K) :
    List (Str × Str) → Detector K R → Outcome Unit × Detector K R
  | [], d => (.ok (), d)
  | e :: rest, d =>
    let value := (cv.num e.2).getD (-1)
    if e.1.upper = "DISTANCE".toList then
      match d.setDistance value with
      | (.ok _, d) => concLoop setArea cv rest d
      | (o, d) => (o, d)
    else if e.1.upper = "AREA".toList then
      match setArea d value with
      | (.ok _, d) => concLoop setArea cv rest d
      | (o, d) => (o, d)
    else concLoop setArea cv rest d

/-- Runs the rest of a call if the first part returned. -/
def andThen {S : Type} (x : Outcome Unit × S) (f : S → Outcome Unit × S) : Outcome Unit × S :=
  match x with
  | (.ok _, s) => f s
  | (o, s) => (o, s)

/-- The outcome of a part, as the outcome of the whole with the state reached. -/
def orKeep {α S : Type} (x : Outcome α) (s : S) (f : α → Outcome Unit × S) : Outcome Unit × S :=
  match x with
  | .ok a => f a
  | .throw e => (.throw e, s)
  | .ub u => (.ub u, s)
  | .diverge => (.diverge, s)

/-- fisx_xrfconfig.cpp:96-111: the section with the beam and the reader afterwards. -/
def fitSection (r : Ini.Reader) : Outcome (SMap Str Str) × Ini.Reader :=
  let a := Ini.readSection r "fit".toList false
  if a.1.length ≠ 0 then (.ok a.1, a.2)
  else
    let b := Ini.readSection a.2 "result.config".toList false
    if b.1.length ≠ 0 then (.ok b.1, b.2) else (.throw .invalidArgument, b.2)

/-- fisx_xrfconfig.cpp:49-512, `readConfigurationFromFile`; `file` is the content of the file. -/
def read (setArea : Detector K R → K → Outcome Unit × Detector K R) (sort : List (Ray K) → List (Ray K)) (cv : Conv K)
    (c : Config K R) (file : Option Str) : Outcome Unit × Config K R :=
  match Ini.read Ini.new file with
  | (.throw e, _) => (.throw e, c)
  | (.ub u, _) => (.ub u, c)
  | (.diverge, _) => (.diverge, c)
  | (.ok _, r) =>
    let fit := fitSection r
    let r := fit.2
    orKeep fit.1 c fun fit =>
    orKeep (beamLists cv fit) c fun b =>
    andThen (let x := Beam.setBeam sort c.beam b.energy b.weight b.scatter []; (x.1, { c with beam := x.2 })) fun c =>
    andThen (let x := matLoop cv r (Ini.getSubsections r "Materials".toList false) MatVars.start []
             (x.1, { c with materials := x.2 })) fun c =>
    andThen (let x := tabLoop cv r (Ini.getSubsections r "UserBeamFilters".toList false)
                { comment := [], useFlag := 0, energy := [], transmission := [] } []
             (x.1, { c with userBeamFilters := x.2 })) fun c =>
    andThen (let x := tabLoop cv r (Ini.getSubsections r "UserAttenuators".toList false)
                { comment := [], useFlag := 0, energy := [], transmission := [] } []
             (x.1, { c with userAttenuators := x.2 })) fun c =>
    let att := Ini.readSection r "attenuators".toList false
    let r := att.2
    let c := { c with beamFilters := [], attenuators := [], sample := [], detector := defaultDetector }
    orKeep (attLoop cv att.1 { config := c, multilayer := false }) c fun s =>
    let c := { s.config with referenceLayer := some 0 }
    let ml := Ini.readSection r "multilayer".toList false
    let r := if s.multilayer then ml.2 else r
    orKeep (if s.multilayer then layerLoop cv c.materials ml.1 c.sample else .ok c.sample) c fun sample =>
    let c := { c with sample := sample }
    let x := concLoop setArea cv (Ini.readSection r "concentrations".toList false).1 c.detector
    (x.1, { c with detector := x.2 })

end Config
end Fisx
