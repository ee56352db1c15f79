import Verif.Ini

/-!
# Model of `fisx::SimpleSpecfile` (/repo/src/fisx_simplespecfile.cpp, /repo/src/fisx_simplespecfile.h)

Strings are lists of characters (bytes below 128: `isdigit` of other ones is undefined). A file is its list of lines
and a flag telling if the last line ends with a newline; the position of a scan in the file (`scanPosition`, a
`streampos`) is the index of its first line. The file is assumed not to change between `setFileName` and the queries.
`strtod` is a parameter. The sentinels -1 of `startLine` and `endLine` are `none`. The locale uses a decimal point
(`replaceDot` false).
-/

namespace Fisx
namespace Specfile

/-- The content of a file as `std::getline` sees it. -/
structure File where
  lines : List Str
  terminated : Bool
deriving DecidableEq, Repr

/-- The file with a given text; `none` for a file that cannot be opened, which gives no lines and no error
(fisx_simplespecfile.cpp:58-64). -/
def File.ofText : Option Str → File
  | none => { lines := [], terminated := true }
  | some text => { lines := Ini.lines text, terminated := text.getLast? == some '\n' }

/-- fisx_simplespecfile.h:71-75: the file and the members `scanFilePositions` and `scanPosition` (the latter equal to the
first components of the former, as line indices). -/
structure Reader where
  file : File
  scans : List (Nat × Nat)
deriving DecidableEq, Repr

/-- fisx_simplespecfile.cpp:39-44. -/
def new : Reader := { file := { lines := [], terminated := true }, scans := [] }

/-- The variables of the loop of `setFileName`. -/
structure Index where
  start : Option Nat
  fin : Option Nat
  scans : List (Nat × Nat)
deriving DecidableEq, Repr

/-- `scanFilePositions.back().second = n`. -/
def setBack (scans : List (Nat × Nat)) (n : Nat) : List (Nat × Nat) :=
  match scans.getLast? with
  | some p => scans.dropLast ++ [(p.1, n)]
  | none => scans

/-- fisx_simplespecfile.cpp:67-87: one line, `n` being `numberOfLines`. -/
def indexLine (n : Nat) (s : Index) (line : Str) : Index :=
  if line.length > 1 then
    if line.take 2 = ['#', 'S'] then { start := some n, fin := none, scans := s.scans ++ [(n, n)] } else s
  else
    match s.start with
    | some _ => { start := none, fin := some n, scans := setBack s.scans n }
    | none => s

/-- fisx_simplespecfile.cpp:64-88: the loop. -/
def indexLines (n : Nat) (s : Index) : List Str → Index
  | [] => s
  | l :: rest => indexLines (n + 1) (indexLine n s l) rest

/-- fisx_simplespecfile.cpp:52-103, `setFileName`. -/
def setFileName (file : File) : Reader :=
  let s := indexLines 0 { start := none, fin := none, scans := [] } file.lines
  { file := file
    scans := if s.fin = none ∧ s.start ≠ none then setBack s.scans file.lines.length else s.scans }

/-- fisx_simplespecfile.cpp:106-109. -/
def getNumberOfScans (r : Reader) : Nat := r.scans.length

/-- `std::getline(stream, line)` on the remaining lines: at the end of the file the line becomes empty, unless the end
was met by the previous call, when it is left as it was. -/
def getline (terminated : Bool) (line : Str) : List Str → Str × List Str
  | [] => (if terminated then [] else line, [])
  | l :: rest => (l, rest)

/-- fisx_simplespecfile.cpp:143-163: the loop with `n` iterations left. -/
def labelLoop (terminated : Bool) : Nat → Str → List Str → Str
  | 0, line, _ => line
  | n + 1, line, stream =>
    if line.length > 1 ∧ line.take 2 = ['#', 'L'] then line
    else labelLoop terminated n (getline terminated line stream).1 (getline terminated line stream).2

/-- fisx_simplespecfile.cpp:174-176 and 248-249. -/
def dropCR (line : Str) : Str := if line.getLast? = some '\r' then line.dropLast else line

/-- fisx_simplespecfile.cpp:178-181. When the last non blank is before `iStart` the count is negative, hence `npos`. -/
def labelText (line : Str) : Str :=
  let iStart := match line.findIdx? (· == ' ') with
    | some i => i + 1
    | none => 0
  let e := (line.reverse.dropWhile (· == ' ')).length
  if iStart ≤ e then (line.take e).drop iStart else line.drop iStart

/-- fisx_simplespecfile.cpp:183-205: the characters from the position `i`; `cur` are those between `iStart` and `i` and
`skip` tells that the inner loop is being executed. -/
def splitLabels : Bool → Str → Str → List Str
  | _, cur, [] => if cur = [] then [] else [cur]
  | skip, cur, c :: t =>
    if skip = true ∧ c = ' ' then splitLabels true [] t
    else if t.length ≥ 2 ∧ c = ' ' ∧ t.head? = some ' ' then cur :: splitLabels true [] t
    else splitLabels false (cur ++ [c]) t

/-- fisx_simplespecfile.cpp:112-207. -/
def getScanLabels (r : Reader) (scanIndex : Int) : Outcome (List Str) :=
  if scanIndex ≥ (getNumberOfScans r : Int) ∨ scanIndex < 0 then .throw .invalidArgument
  else do
    let p ← vget r.scans scanIndex.toNat
    if (1 + p.2 : Int) - p.1 < 0 then .throw .runtimeError
    else
      let line := labelLoop r.file.terminated (1 + p.2 - p.1) [] (r.file.lines.drop p.1)
      if line.length < 2 then .throw .runtimeError
      else if line.take 2 ≠ ['#', 'L'] then .throw .runtimeError
      else .ok (splitLabels false [] (labelText (dropCR line)))

/-- fisx_simplespecfile.cpp:34. -/
def isNumber (c : Char) : Bool :=
  c.isDigit || c == '-' || c == '+' || c == '.' || c == 'E' || c == 'e'

/-- fisx_simplespecfile.cpp:263-288: the strings given to `strtod`; `cur` is `tmpString`. -/
def tokens (cur : Str) : Str → List Str
  | [] => if cur = [] then [] else [cur]
  | c :: t =>
    if isNumber c then tokens (cur ++ [c]) t
    else if cur = [] then tokens [] t else cur :: tokens [] t

variable {K : Type}

/-- fisx_simplespecfile.cpp:243-302: the loop with `n` iterations left. -/
def dataLoop (strtod : Str → K) (terminated : Bool) :
    Nat → Str → List Str → List (List K) → Outcome (List (List K))
  | 0, _, _, result => .ok result
  | n + 1, line, stream, result =>
    let got := getline terminated line stream
    let l := dropCR got.1
    if l.head? = some '#' then dataLoop strtod terminated n l got.2 result
    else
      let numbers := (tokens [] l).map strtod
      if numbers.length > 0 then
        match result with
        | [] => dataLoop strtod terminated n l got.2 [numbers]
        | first :: _ =>
          if first.length ≠ numbers.length then .throw .runtimeError
          else dataLoop strtod terminated n l got.2 (result ++ [numbers])
      else dataLoop strtod terminated n l got.2 result

/-- fisx_simplespecfile.cpp:209-304. -/
def getScanData (strtod : Str → K) (r : Reader) (scanIndex : Int) : Outcome (List (List K)) :=
  if scanIndex ≥ (getNumberOfScans r : Int) ∨ scanIndex < 0 then .throw .invalidArgument
  else do
    let p ← vget r.scans scanIndex.toNat
    dataLoop strtod r.file.terminated (p.2 - p.1) [] (r.file.lines.drop p.1) []

end Specfile
end Fisx
