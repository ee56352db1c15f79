import Verif.Base
import Verif.SMap

/-!
# Model of `fisx::SimpleIni` (/repo/src/fisx_simpleini.cpp, /repo/src/fisx_simpleini.h)

Strings are lists of characters (bytes below 128: `isspace` of other ones is undefined or depends on the locale); the
locale is the "C" one. The content of the file is an argument, `none` for a file that cannot be opened. Not modelled:
the messages on the console, `sectionPositions` and `fileName` (never read), and the conversions of
fisx_simpleini.h:93-135, which are those of the C++ streams.
-/

namespace Fisx
namespace Ini

/-- fisx_simpleini.h:147-150: the data members that can be observed. -/
structure Reader where
  sections : List Str
  contents : SMap Str (SMap Str Str)
deriving DecidableEq, Repr

/-- fisx_simpleini.cpp:37-42. -/
def new : Reader := { sections := [], contents := [] }

/-- `std::getline` until the end of the file; `cur` is the current line. -/
def linesFrom (cur : Str) : Str → List Str
  | [] => if cur = [] then [] else [cur]
  | c :: t => if c = '\n' then cur :: linesFrom [] t else linesFrom (cur ++ [c]) t

/-- The lines of a file. -/
def lines (text : Str) : List Str := linesFrom [] text

/-- The characters of `" \n\r\t"`. -/
def isTrim (c : Char) : Bool := c == ' ' || c == '\n' || c == '\r' || c == '\t'

/-- fisx_simpleini.cpp:84-95. -/
def trim (l : Str) : Str := ((l.reverse.dropWhile isTrim).reverse).dropWhile isTrim

/-- `isspace` in the "C" locale. -/
def isSpace (c : Char) : Bool :=
  c == ' ' || c == '\t' || c == '\n' || c == '\x0b' || c == '\x0c' || c == '\r'

/-- The variables of the loop over the characters of a line. -/
structure Scan where
  out : Str
  quotes : Nat
  eq : Nat
deriving DecidableEq, Repr

/-- fisx_simpleini.cpp:141-180. At a comment sign `i` is set to the size of the string: the character read is the
terminating zero, which is appended, and the loop ends. -/
def scan : Str → Scan → Scan
  | [], s => s
  | c :: t, s =>
    if c = '"' then scan t { s with out := s.out ++ [c], quotes := s.quotes + 1 }
    else if s.quotes % 2 = 1 then scan t { s with out := s.out ++ [c] }
    else if c = '#' ∨ c = ';' then { s with out := s.out ++ ['\x00'] }
    else
      let out := if s.eq = 0 then (if isSpace c then s.out else s.out ++ [c]) else s.out ++ [c]
      scan t { s with out := out, eq := if c = '=' ∧ s.eq = 0 then out.length - 1 else s.eq }

/-- The state while reading a file: the members and the variables `mainKey` and `key`. -/
structure State where
  reader : Reader
  main : Str
  key : Str
deriving DecidableEq, Repr

/-- `sectionContents[main][key]`, default constructed when missing. -/
def entry (m : SMap Str (SMap Str Str)) (main : Str) : SMap Str Str := (m.find? main).getD []

/-- fisx_simpleini.cpp:208: `sectionContents[mainKey][key] = content`. -/
def setEntry (r : Reader) (main key content : Str) : Reader :=
  { r with contents := r.contents.insert main ((entry r.contents main).insert key content) }

/-- fisx_simpleini.cpp:98-136: a section line, `t` being what follows the first bracket. -/
def header (st : State) (t : Str) : Outcome Unit × State :=
  if '[' ∈ t then (.throw .invalidArgument, st)
  else if t.count ']' ≠ 1 ∨ t.findIdx (· == ']') < 1 then (.throw .invalidArgument, st)
  else
    let name := t.take (t.findIdx (· == ']'))
    (.ok (), { st with main := name, reader := { st.reader with sections := st.reader.sections ++ [name] } })

/-- fisx_simpleini.cpp:138-221: another line. -/
def body (st : State) (t : Str) : Outcome Unit × State :=
  let s := scan t { out := [], quotes := 0, eq := 0 }
  if s.quotes % 2 = 1 then (.throw .invalidArgument, st)
  else if s.out.length < 1 then (.ok (), { st with key := [] })
  else if s.eq > 0 then
    let key := s.out.take s.eq
    (.ok (), { st with key := key, reader := setEntry st.reader st.main key (s.out.drop (s.eq + 1)) })
  else if st.key.length > 0 ∧ st.main.length > 0 then
    let content := ((entry st.reader.contents st.main).find? st.key).getD [] ++ s.out
    (.ok (), { st with reader := setEntry st.reader st.main st.key content })
  else (.ok (), st)

/-- fisx_simpleini.cpp:82-222: one line. -/
def readLine (st : State) (line : Str) : Outcome Unit × State :=
  match trim line with
  | [] => (.ok (), st)
  | c :: t => if c = '[' then header st t else body st (c :: t)

/-- fisx_simpleini.cpp:79-223: the lines until the end or an exception. -/
def readLines (st : State) : List Str → Outcome Unit × State
  | [] => (.ok (), st)
  | l :: rest =>
    match readLine st l with
    | (.ok (), st) => readLines st rest
    | (o, st) => (o, st)

/-- fisx_simpleini.cpp:50-230, `readFileName`: the sections are forgotten, not the contents. -/
def read (r : Reader) (file : Option Str) : Outcome Unit × Reader :=
  match file with
  | none => (.throw .ioFailure, r)
  | some text =>
    let res := readLines { reader := { r with sections := [] }, main := [], key := [] } (lines text)
    (res.1, res.2.reader)

/-- fisx_simpleini.cpp:233-236. -/
def getSections (r : Reader) : List Str := r.sections

/-- fisx_simpleini.cpp:238-288. -/
def getSubsections (r : Reader) (parent : Str) (caseSensitive : Bool) : List Str :=
  if parent.length = 0 then r.sections
  else if caseSensitive then
    let target := parent ++ ['.']
    r.sections.filter (fun s => decide (s.length = target.length ∧ s.take target.length = target))
  else
    let target := (parent ++ ['.']).upper
    r.sections.filter (fun s => decide (target.length ≤ s.length ∧ s.upper.take target.length = target))

/-- fisx_simpleini.cpp:312-320: the number of leading characters that agree (both strings have the same size). -/
def agreeing : Str → Str → Nat
  | c :: s, d :: t => if c.toUpper = d then agreeing s t + 1 else 0
  | _, _ => 0

/-- fisx_simpleini.cpp:307-326: the section the search stops at. -/
def search (input : Str) : List Str → Option Str
  | [] => none
  | s :: rest =>
    if s.length = input.length ∧ agreeing s input < input.length then some s else search input rest

/-- fisx_simpleini.cpp:290-332, `readSection`; the second component is the reader afterwards (`operator[]` creates
the entry of a section without keys). -/
def readSection (r : Reader) (key : Str) (caseSensitive : Bool) : SMap Str Str × Reader :=
  match r.contents.find? key with
  | some m => (m, r)
  | none =>
    if caseSensitive then ([], r)
    else match search key.upper r.sections with
      | some s => (entry r.contents s, { r with contents := r.contents.insert s (entry r.contents s) })
      | none => ([], r)

end Ini
end Fisx
