import Verif.MultilayerParts
import Verif.LayerLibrary
import Verif.BeamProps
import Verif.Init
import Verif.VectorApi

/-!
# Model of the Python interface (/repo/python/cython/*.pyx, *.pxd, /repo/python/fisx/FisxCythonTools.py)

The interface is the one of Python 3. An object that has no length (`hasattr(x, "__len__")` is false) is a number here, one
that has a length is a list of numbers; arrays of numpy and other sequences are left out. `bytes` objects hold the UTF-8
encoding of a text; here they hold the text.
-/

namespace Fisx
namespace Python

/-- The exceptions of Python that the interface raises. -/
inductive PyErr
  | valueError
  | runtimeError
  | ioError
  | indexError
  | typeError
  | attributeError
deriving DecidableEq, Repr

/-- What a Python caller sees: a value, an exception, the end of the process (an exception of C++ that nobody catches),
undefined behaviour, or nothing. -/
inductive Result (α : Type _)
  | value (a : α)
  | raises (e : PyErr)
  | aborts (e : Exc)
  | ub (u : UB)
  | hangs
deriving DecidableEq, Repr

/-- Sequencing. -/
def Result.bind {α β : Type _} (x : Result α) (f : α → Result β) : Result β :=
  match x with
  | .value a => f a
  | .raises e => .raises e
  | .aborts e => .aborts e
  | .ub u => .ub u
  | .hangs => .hangs

instance : Monad Result where
  pure := .value
  bind := Result.bind

/-- python/cython/default/_fisx.cpp, `__Pyx_CppExn2PyErr`: the Python exception made of one of C++. -/
def translate : Exc → PyErr
  | .invalidArgument => .valueError
  | .domainError => .valueError
  | .ioFailure => .ioError
  | .outOfRange => .indexError
  | .runtimeError => .runtimeError
  | .lengthError => .runtimeError

/-- A call of a method declared with `except +`. -/
def guarded {α : Type _} : Outcome α → Result α
  | .ok a => .value a
  | .throw e => .raises (translate e)
  | .ub u => .ub u
  | .diverge => .hangs

/-- A call of a method declared without `except +`: the C++ exception goes through code that does not expect it. -/
def bare {α : Type _} : Outcome α → Result α
  | .ok a => .value a
  | .throw e => .aborts e
  | .ub u => .ub u
  | .diverge => .hangs

/-- An argument that may be a number or a list. -/
inductive Arg (α : Type _)
  | one (a : α)
  | many (l : List α)
deriving DecidableEq, Repr

/-! ### Text -/

/-- A `str` or a `bytes` object. -/
inductive Text
  | str (s : String)
  | bytes (s : String)
deriving DecidableEq, Repr

/-- FisxCythonTools.py:54-59, `toBytes`. -/
def toBytes : Text → Text
  | .str s => .bytes s
  | .bytes s => .bytes s

/-- FisxCythonTools.py:61-66, `toString`. -/
def toStr : Text → Text
  | .str s => .str s
  | .bytes s => .str s

/-- python/cython/default/_fisx.cpp:43467-43492: a Python object becomes a `std::string`; a `str` is refused. -/
def stdString : Text → Result String
  | .bytes s => .value s
  | .str _ => .raises .typeError

/-- FisxCythonTools.py:68-70, `toBytesKeys`. -/
def toBytesKeys {K : Type} (d : List (Text × K)) : List (Text × K) := d.map (fun p => (toBytes p.1, p.2))

/-- The conversion of a dictionary to a `std::map<std::string, double>`. -/
def stdMap {K : Type} : List (Text × K) → Result (SMap String K)
  | [] => .value []
  | (k, x) :: rest => do
    let s ← stdString k
    let m ← stdMap rest
    return if m.mem s then m else m.insert s x

/-- What comes back from C++: a `std::map` becomes a dictionary, a vector of pairs a list of tuples. -/
inductive Container (K : Type)
  | dict (l : List (Text × K))
  | list (l : List (Text × K))
deriving DecidableEq, Repr

/-- FisxCythonTools.py:84-86, `toStringKeys`: a list has no method `items`. -/
def toStringKeys {K : Type} : Container K → Result (List (Text × K))
  | .dict l => .value (l.map (fun p => (toStr p.1, p.2)))
  | .list _ => .raises .attributeError

/-! ### The beam -/

section beam

variable {K R : Type} [Field K] [LinearOrder K]

/-- An optional number, for an argument that must be a number. -/
def number (d : Option (Arg K)) (dflt : K) : Result K :=
  match d with
  | none => .value dflt
  | some (.one x) => .value x
  | some (.many _) => .raises .typeError

/-- An optional list, for an argument that must be a list. -/
def vector {α : Type} (d : Option (Arg α)) (dflt : List α) : Result (List α) :=
  match d with
  | none => .value dflt
  | some (.many l) => .value l
  | some (.one _) => .raises .typeError

/-- PyXRF.pyx:66-69: the weights of the beam of the configuration. -/
def beamWeights (n : Nat) : Option (Arg K) → List K
  | none => List.replicate n 1
  | some (.one w) => [w]
  | some (.many l) => l

/-- The call of a method that changes an object. -/
def onState {α σ : Type} (x : Result α) (s : σ) (f : α → Result Unit × σ) : Result Unit × σ :=
  match x with
  | .value a => f a
  | .raises e => (.raises e, s)
  | .aborts e => (.aborts e, s)
  | .ub u => (.ub u, s)
  | .hangs => (.hangs, s)

/-- PyXRF.pyx:60-82, fisx_xrf.cpp:83-95, fisx_xrfconfig.cpp:514-526: `PyXRF.setBeam`. -/
def xrfSetBeam (sort : List (Ray K) → List (Ray K)) (c : Config K R) (energies : Arg K) (weights : Option (Arg K))
    (characteristic : Option (Arg Int)) (divergency : Option (Arg K)) : Result Unit × Config K R :=
  match energies with
  | .one e => onState (number divergency 0) c (fun d =>
      let r := c.beam.setSingleEnergyBeam sort e d
      (guarded r.1, { c with beam := r.2 }))
  | .many es =>
    onState (vector characteristic (List.replicate es.length 1)) c (fun ch =>
      onState (vector divergency (List.replicate es.length 0)) c (fun d =>
        let r := c.beam.setBeam sort es (beamWeights es.length weights) ch d
        (guarded r.1, { c with beam := r.2 })))

/-- PyBeam.pyx:53-57: the energies of a beam. -/
def beamEnergies : Arg K → List K
  | .one e => [e]
  | .many es => es

/-- PyBeam.pyx:58-64: the weights of a beam. A number is taken for missing when it is zero, a list when it is empty. -/
def ownWeights (n : Nat) : Option (Arg K) → List K
  | none => List.replicate n 1
  | some (.one w) => if w = 0 then List.replicate n 1 else [w]
  | some (.many []) => List.replicate n 1
  | some (.many (w :: l)) => w :: l

/-- PyBeam.pyx:50-68, `PyBeam.setBeam`. -/
def beamSetBeam (sort : List (Ray K) → List (Ray K)) (b : Beam K) (energies : Arg K) (weights : Option (Arg K)) :
    Result Unit × Beam K :=
  let es := beamEnergies energies
  let r := b.setBeam sort es (ownWeights es.length weights) [] []
  (guarded r.1, r.2)

/-- PyXRF.pyx:217-221, `PyXRF.setGeometry`. -/
def setGeometry (c : Config K R) (alphaIn alphaOut scatteringAngle : K) : Config K R :=
  if scatteringAngle < 0 then Xrf.setGeometry c alphaIn alphaOut (alphaIn + alphaOut)
  else Xrf.setGeometry c alphaIn alphaOut scatteringAngle

/-! ### The user tables -/

/-- An item of a list of user tables: an instance, the four arguments of the method with vectors, the three arguments of the
method with a dictionary, or anything else. -/
inductive TableItem (K : Type)
  | instance_ (t : TransmissionTable K)
  | lists (energy transmission : List K) (name comment : Text)
  | dict (table : SMap K K) (name comment : Text)
  | other

/-- Whether an item is an instance. -/
def TableItem.isInstance : TableItem K → Bool
  | .instance_ _ => true
  | _ => false

/-- PyXRF.pyx:126-133: an instance is copied. Its name and its comment come as `str` (PyTransmissionTable.pyx:49-60) and go
to a method that takes `std::string`. -/
def copyInstance : TableItem K → Result (TransmissionTable K)
  | .instance_ t => do
    let n ← stdString (toStr (.bytes t.name))
    let m ← stdString (toStr (.bytes t.comment))
    let r := (TransmissionTable.new "" "").setMap t.table n m
    let _ ← guarded r.1
    return r.2
  | _ => .raises .attributeError

/-- PyXRF.pyx:134-148: a table is made of the arguments. -/
def makeTable : TableItem K → Result (TransmissionTable K)
  | .lists e t n m => do
    let n ← stdString (toBytes n)
    let m ← stdString (toBytes m)
    let r := (TransmissionTable.new "" "").setLists e t n m
    let _ ← guarded r.1
    return r.2
  | .dict d n m => do
    let n ← stdString (toBytes n)
    let m ← stdString (toBytes m)
    let r := (TransmissionTable.new "" "").setMap d n m
    let _ ← guarded r.1
    return r.2
  | .instance_ _ => .raises .typeError
  | .other => .raises .valueError

/-- The loop over the items. -/
def tablesOf (f : TableItem K → Result (TransmissionTable K)) : List (TableItem K) → Result (List (TransmissionTable K))
  | [] => .value []
  | i :: rest => do
    let t ← f i
    let l ← tablesOf f rest
    return t :: l

/-- PyXRF.pyx:114-152, `_fillTransmissionTable`: the first item says which items are expected. -/
def fillTables (items : List (TableItem K)) : Result (List (TransmissionTable K)) :=
  match items with
  | [] => .value []
  | i :: _ => if i.isInstance then tablesOf copyInstance items else tablesOf makeTable items

/-- PyXRF.pyx:107-112, `setUserBeamFilters`. -/
def setUserBeamFilters (c : Config K R) (items : List (TableItem K)) : Result Unit × Config K R :=
  onState (fillTables items) c (fun l => (.value (), { c with userBeamFilters := l }))

/-- PyXRF.pyx:204-212, `setUserAttenuators`. -/
def setUserAttenuators (c : Config K R) (items : List (TableItem K)) : Result Unit × Config K R :=
  onState (fillTables items) c (fun l => (.value (), { c with userAttenuators := l }))

end beam

/-! ### Fluorescence -/

/-- A name or a list of names. -/
inductive Names
  | text (t : Text)
  | many (l : List Text)
deriving DecidableEq, Repr

/-- The items of a `str`: its characters. -/
def charsOf (s : String) : List Text := s.toList.map (fun c => .str (String.singleton c))

/-- PyXRF.pyx:403-408: the list of elements. The first item of a `str` has a length, that of a `bytes` (a number) has
none. -/
def elementList : Names → Result (List Text)
  | .text (.str s) => if s.toList = [] then .raises .indexError else .value (charsOf s)
  | .text (.bytes s) => if s.toList = [] then .raises .indexError else .value [.bytes s]
  | .many [] => .raises .indexError
  | .many (t :: l) => .value (t :: l)

/-- PyXRF.pyx:417-422: the list of families; `none` is an item that is not a text. -/
def familyList : Names → List (Option Text)
  | .text (.str s) => if s.toList = [] then [some (.str s)] else (charsOf s).map some
  | .text (.bytes s) => if s.toList = [] then [some (.bytes s)] else s.toList.map (fun _ => none)
  | .many [] => [none]
  | .many l => l.map some

/-- PyXRF.pyx:410-415: the list of layers. -/
def layerList : Arg Int → List Int
  | .one n => [n]
  | .many l => l

/-- PyXRF.pyx:433-434, 439-440: the items become `std::string`. -/
def stdStrings : List (Option Text) → Result (List String)
  | [] => .value []
  | none :: _ => .raises .typeError
  | some t :: rest => do
    let s ← stdString (toBytes t)
    let l ← stdStrings rest
    return s :: l

/-- PyXRF.pyx:403-440: the vectors of elements, layers and families that are handed over. -/
def fluorescenceArgs (elementNames : Names) (sampleLayer : Arg Int) (lineFamily : Names) :
    Result (List String × List Int × List String) := do
  let els ← elementList elementNames
  let fams := familyList lineFamily
  let ls := layerList sampleLayer
  if fams.length ≠ els.length then .raises .indexError
  else if ls.length > 1 ∧ ls.length ≠ els.length then .raises .indexError
  else do
    let e ← stdStrings (els.map some)
    let f ← stdStrings fams
    return (e, ls, f)

section fluorescence

variable {R : Type}
variable (pf : String → Outcome (SMap String ℝ)) (fuel : Nat) (L : Library ℝ) (c : Config ℝ R)

/-- PyXRF.pyx:355-447, `getFluorescence`. -/
noncomputable def getFluorescence (srt : List (String × ℝ) → List (String × ℝ)) (o : Multilayer.Options ℝ) (g : Bool)
    (overwriting : Beam ℝ) (elementNames : Names) (sampleLayer : Arg Int) (lineFamily : Names) :
    Result (Multilayer.Result ℝ) :=
  (fluorescenceArgs elementNames sampleLayer lineFamily).bind (fun a =>
    guarded (Multilayer.fluorescenceVectors pf fuel L c srt o g overwriting a.1 a.2.1 a.2.2))

/-- PyXRF.pyx:297-304, `PyXRF.getLayerPeakFamilies`: the vector of pairs is handed to `toStringKeys`. -/
noncomputable def xrfLayerPeakFamilies (srt : List (String × ℝ) → List (String × ℝ)) (l : Layer ℝ) (e : ℝ) :
    Result (List (Text × ℝ)) :=
  (guarded (Multilayer.layerFamilies pf fuel L srt c l e [])).bind (fun r =>
    toStringKeys (.list (r.map (fun p => (Text.bytes p.1, p.2)))))

/-- PyXRF.pyx:223-225, `PyXRF.getLayerComposition`. -/
noncomputable def xrfLayerComposition (l : Layer ℝ) : Result (List (Text × ℝ)) :=
  (guarded (Multilayer.layerComposition pf fuel L c l)).bind (fun r =>
    toStringKeys (.dict (r.map (fun p => (Text.bytes p.1, p.2)))))

end fluorescence

section layer

variable {K : Type} [Field K] [LinearOrder K]

/-- PyLayer.pyx:52-59, Layer.pxd:44: `PyLayer.getComposition`, declared without `except +`. -/
def layerComposition (pf : String → Outcome (SMap String K)) (fuel : Nat) (L : Library K) (l : Layer K) :
    Result (List (Text × K)) :=
  (bare (l.composition pf fuel L)).bind (fun r => toStringKeys (.dict (r.map (fun p => (Text.bytes p.1, p.2)))))

/-- PyLayer.pyx:80-88, Layer.pxd:50: `PyLayer.getPeakFamilies`; `sorted` is stable. -/
def layerPeakFamilies (pf : String → Outcome (SMap String K)) (fuel : Nat) (srt : List (String × K) → List (String × K))
    (L : Library K) (l : Layer K) (e : K) : Result (List (Text × K)) :=
  (guarded (l.peakFamilies pf fuel srt L e)).bind (fun r =>
    .value ((r.mergeSort (fun a b => decide (a.2 ≤ b.2))).map (fun p => (Text.str p.1, p.2))))

/-- fisx_layer.cpp:156-198, `getTransmission` at several energies, with the library. -/
noncomputable def layerTransmissions (pf : String → Outcome (SMap String ℝ)) (fuel : Nat) (L : Library ℝ) (l : Layer ℝ)
    (es : List ℝ) (angle : ℝ) : Outcome (List Layer.Ext) :=
  l.getTransmissions (do
    let ms ← (if l.hasMaterial then L.mixMus pf fuel l.material.composition es false else L.nameMus pf fuel l.materialName es)
    return ms.map (fun m => m.total)) angle

/-- PyLayer.pyx:61-70, Layer.pxd:46: `PyLayer.getTransmission`, declared without `except +`. -/
noncomputable def layerTransmission (pf : String → Outcome (SMap String ℝ)) (fuel : Nat) (L : Library ℝ) (l : Layer ℝ)
    (energies : Arg ℝ) (angle : ℝ) : Result (List Layer.Ext) :=
  bare (layerTransmissions pf fuel L l (beamEnergies energies) angle)

/-- PyDetector.pyx:50-53, Detector.pxd: `PyDetector.getTransmission`, declared with `except +`. -/
noncomputable def detectorTransmission (pf : String → Outcome (SMap String ℝ)) (fuel : Nat) (L : Library ℝ) (l : Layer ℝ)
    (energies : Arg ℝ) (angle : ℝ) : Result (List Layer.Ext) :=
  guarded (layerTransmissions pf fuel L l (beamEnergies energies) angle)

/-- PyEPDL97.pyx:56-57, EPDL97.pxd:41: `PyEPDL97.getBindingEnergies`, declared without `except +`. -/
def epdlBindingEnergies (e : EPDL97 K) (z : Int) : Result (SMap Str K) := bare (e.getBindingEnergies z)

end layer

/-! ### The library of elements -/

section elements

variable {K : Type} [Field K] [LinearOrder K] [Trans K]

/-- PyElements.pyx:262-279, 301-307: `PyElements.getExcitationFactors`. -/
def getExcitationFactors (L : Library K) (name : Text) (energy : Arg K) (weight : Option (Arg K)) :
    Result (Arg (SMap Str (Factor K))) :=
  match energy with
  | .many es => do
    let n ← stdString (toBytes name)
    let ws ← vector weight (List.replicate es.length 1)
    let r ← guarded (L.getExcitationFactorsList n es ws)
    match r with
    | [] => .raises .indexError
    | f :: _ => .value (.one f)
  | .one e => do
    let n ← stdString (toBytes name)
    let w ← number weight 1
    let r ← guarded (L.getExcitationFactorsList n [e] [w])
    return .many r

/-- PyElements.pyx:239-260, 232-237: `PyElements.getMassAttenuationCoefficients` of a name at given energies. -/
def getCoefficients (pf : String → Outcome (SMap String K)) (L : Library K) (fuel : Nat) (name : Text) (energy : Arg K) :
    Result (List (Mix K)) := do
  let n ← stdString (toBytes name)
  guarded (L.nameMus pf fuel n (beamEnergies energy))

/-- PyElements.pyx:252-253, 281-299: of a dictionary, whose keys go to `std::string` as they are. -/
def getDictCoefficients (pf : String → Outcome (SMap String K)) (L : Library K) (fuel : Nat) (d : List (Text × K))
    (energy : Arg K) : Result (List (Mix K)) := do
  let m ← stdMap d
  guarded (L.mixMus pf fuel m (beamEnergies energy) false)

omit [Trans K] in
/-- PyElements.pyx:141-142, `getColumn`. -/
def getColumn (d : Init.Database K) (name : Text) : Result Int := do
  let n ← stdString (toBytes name)
  guarded (Init.getColumn d n)

omit [Trans K] in
/-- PyElements.pyx:144-145, `getRow`: the argument is declared as `std::string`. -/
def getRow (d : Init.Database K) (name : Text) : Result Int := do
  let n ← stdString name
  guarded (Init.getRow d n)

omit [Trans K] in
/-- PyElements.pyx:129-130, `getAtomicMass`. -/
def getAtomicMass (d : Init.Database K) (name : Text) : Result K := do
  let n ← stdString (toBytes name)
  guarded (Init.getAtomicMass d n)

omit [Trans K] in
/-- PyElements.pyx:132-133, `getAtomicNumber`. -/
def getAtomicNumber (d : Init.Database K) (name : Text) : Result Int := do
  let n ← stdString (toBytes name)
  guarded (Init.getAtomicNumber d n)

omit [Trans K] in
/-- PyElements.pyx:135-136, `getDensity`. -/
def getDensity (d : Init.Database K) (name : Text) : Result K := do
  let n ← stdString (toBytes name)
  guarded (Init.getDensity d n)

omit [Trans K] in
/-- PyElements.pyx:138-139, `getLongName`. -/
def getLongName (d : Init.Database K) (name : Text) : Result Text := do
  let n ← stdString (toBytes name)
  let r ← guarded (Init.getLongName d n)
  return toStr (.bytes r)

/-! ### initializeAsPyMca -/

/-- The object of C++ behind a Python object: `thisptr` points to it or to memory given back. -/
inductive Handle (K : Type)
  | live (d : Init.Database K)
  | freed

/-- A call through `thisptr`. -/
def Handle.use {α : Type} (h : Handle K) (f : Init.Database K → Outcome α) : Result α :=
  match h with
  | .live d => guarded (f d)
  | .freed => .ub .dangling

/-- `os.path.join` of a directory and a file name, on POSIX systems. -/
def osJoin (dir file : String) : String :=
  if dir.toList = [] then file
  else if dir.toList.getLast? = some '/' then dir ++ file
  else dir ++ "/" ++ file

/-- PyElements.pyx:92-98, 118-124: the files of shell data are loaded one after the other. -/
def loadPyMca (strtod : Str → K) (fs : Init.Files) (path : String → String) :
    List (Loader.Kind × String × String) → Init.Database K → Result Unit × Init.Database K
  | [], d => (.value (), d)
  | (kind, main, file) :: rest, d =>
    let r := Loader.load kind strtod { elements := d.lib.elements, files := d.files } main (path file) (fs (path file))
    let d' : Init.Database K := { d with lib := { d.lib with elements := r.2.elements }, files := r.2.files }
    match r.1 with
    | .ok () => loadPyMca strtod fs path rest d'
    | .throw e => (.raises (translate e), d')
    | .ub u => (.ub u, d')
    | .diverge => (.hangs, d')

/-- PyElements.pyx:74-124, `initializeAsPyMca` and `__initializeAsPyMcaOld`: the old object is destroyed, a new one made.
`path` gives the path of a file of PyMca (`getDataFile` or the files of a directory). -/
def initializeAsPyMca (on : Bool) (key : EscapeKey K) (strtod : Str → K) (fs : Init.Files) (dir : String)
    (path : String → String) (_h : Handle K) : Result Unit × Handle K :=
  match Init.construct3 on key strtod fs dir (path "BindingEnergies.dat") (path "XCOM_CrossSections.dat") with
  | .ok d =>
    let r := loadPyMca strtod fs path Init.pymcaFiles d
    (r.1, .live r.2)
  | .throw e => (.raises (translate e), .freed)
  | .ub u => (.ub u, .freed)
  | .diverge => (.hangs, .freed)

end elements

end Python
end Fisx
