import Verif.Library
import Verif.Specfile

/-!
# Model of the files of shell data of `fisx::Elements` (/repo/src/fisx_elements.cpp:318-614, 1832-1868)

Fluorescence and Coster-Kronig yields, radiative and nonradiative transition rates. The file is read through the model of
SimpleSpecfile, from its text. Only the list of elements and the names of the loaded files are touched by these calls.
-/

namespace Fisx
namespace Loader

variable {K : Type} [Field K] [LinearOrder K]

/-- The three kinds of files. -/
inductive Kind
  | constants
  | radiative
  | nonradiative
deriving DecidableEq, Repr

/-- What the calls read and change: the list of elements and, for each kind of file, the name of the file loaded for each
main shell (`shellConstantsFile`, `shellRadiativeTransitionsFile`, `shellNonradiativeTransitionsFile`). -/
structure State (K : Type) where
  elements : List (LibElement K)
  files : Kind → SMap String String

/-- fisx_elements.cpp:331-377, 433-479, 529-575: the subshells of a main shell. Their number is the number of scans that
is required. -/
def subshellsOf (main : String) : Option (List Str) :=
  if main = "K" then some ["K".toList]
  else if main = "L" then some ["L1".toList, "L2".toList, "L3".toList]
  else if main = "M" then some ["M1".toList, "M2".toList, "M3".toList, "M4".toList, "M5".toList]
  else none

/-- The entry of the dictionary a column goes to. fisx_elements.cpp:394-414 for the constants (labels of more than four
characters are ignored unless they begin with "omega"); 500-503, 596-599 for the transitions. -/
def Kind.key : Kind → Str → Option Str
  | .constants, l =>
    if l = "Z".toList then none
    else if l.length > 4 then (if l.take 5 = "omega".toList then some "omega".toList else none)
    else some l
  | _, l => if l = "Z".toList then none else some l

/-- fisx_elements.cpp:392-415, 498-505, 594-601: the columns of one row, from column `j` on. -/
def rowDict (kind : Kind) (row : List K) : List Str → Nat → SMap Str K → Outcome (SMap Str K)
  | [], _, acc => .ok acc
  | l :: ls, j, acc =>
    match kind.key l with
    | none => rowDict kind row ls (j + 1) acc
    | some k => do
      let v ← vget row j
      rowDict kind row ls (j + 1) (acc.insert k v)

/-- fisx_elements.cpp:417, 507-511, 603-607: the call on the element. Transitions are set only for subshells with a
positive binding energy. -/
def Kind.apply (kind : Kind) (sub : Str) (e : Element K) (d : SMap Str K) : Outcome Unit × Element K :=
  match kind with
  | .constants => e.setShellConstants sub d
  | .radiative => if Element.at0 e.binding sub > 0 then e.setRadiativeMap sub d else (.ok (), e)
  | .nonradiative => if Element.at0 e.binding sub > 0 then e.setNonradiativeMap sub d else (.ok (), e)

/-- fisx_elements.cpp:390-418, 496-512, 592-608: the rows of a scan, from row `n` on. The dictionary is emptied before the
first row only. Row `n` goes to the `n`-th element. -/
def rowsLoop (kind : Kind) (sub : Str) (labels : List Str) : List (List K) → Nat → SMap Str K → List (LibElement K) →
    Outcome Unit × List (LibElement K)
  | [], _, _, els => (.ok (), els)
  | row :: rest, n, acc, els =>
    match rowDict kind row labels 0 acc with
    | .ok d =>
      match els[n]? with
      | none => (.ub .outOfBounds, els)
      | some e =>
        let r := kind.apply sub e.data d
        match r.1 with
        | .ok () => rowsLoop kind sub labels rest (n + 1) d (els.set n { e with data := r.2 })
        | o => (o, els.set n { e with data := r.2 })
    | .throw x => (.throw x, els)
    | .ub u => (.ub u, els)
    | .diverge => (.diverge, els)

/-- fisx_elements.cpp:379-389, 485-495, 581-591: labels and rows of scan `i`. The check of the number of values looks at
row `i` of the scan. -/
def readScan (strtod : Str → K) (r : Specfile.Reader) (i : Nat) : Outcome (List Str × List (List K)) := do
  let labels ← Specfile.getScanLabels r i
  let rows ← Specfile.getScanData strtod r i
  let row ← vget rows i
  if row.length ≠ labels.length then .throw .ioFailure else return (labels, rows)

/-- fisx_elements.cpp:379-419, 485-513, 581-609: the scans, from scan `i` on. -/
def scansLoop (kind : Kind) (strtod : Str → K) (r : Specfile.Reader) : List Str → Nat → List (LibElement K) →
    Outcome Unit × List (LibElement K)
  | [], _, els => (.ok (), els)
  | sub :: subs, i, els =>
    match readScan strtod r i with
    | .ok (labels, rows) =>
      let q := rowsLoop kind sub labels rows 0 [] els
      match q.1 with
      | .ok () => scansLoop kind strtod r subs (i + 1) q.2
      | o => (o, q.2)
    | .throw x => (.throw x, els)
    | .ub u => (.ub u, els)
    | .diverge => (.diverge, els)

/-- fisx_elements.cpp:318-421 (`setShellConstantsFile`), 423-517 (`setShellNonradiativeTransitionsFile`), 519-613
(`setShellRadiativeTransitionsFile`), with the text of the file (`none`: it cannot be opened). -/
def load (kind : Kind) (strtod : Str → K) (s : State K) (main : String) (fileName : String) (text : Option Str) :
    Outcome Unit × State K :=
  match subshellsOf main with
  | none => (.throw .invalidArgument, s)
  | some subs =>
    let r := Specfile.setFileName (Specfile.File.ofText text)
    if Specfile.getNumberOfScans r ≠ subs.length then (.throw .ioFailure, s)
    else
      let q := scansLoop kind strtod r subs 0 s.elements
      match q.1 with
      | .ok () => (.ok (), { elements := q.2
                             files := fun k => if k = kind then (s.files k).insert main fileName else s.files k })
      | o => (o, { s with elements := q.2 })

/-- fisx_elements.cpp:1832-1868, the three `get...File`. -/
def fileOf (s : State K) (kind : Kind) (main : String) : Outcome String :=
  match (s.files kind).find? main with
  | some f => .ok f
  | none => .throw .invalidArgument

end Loader
end Fisx
