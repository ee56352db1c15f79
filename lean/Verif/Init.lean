import Verif.Install
import Verif.Loader

/-!
# Model of the constructors of `fisx::Elements` (/repo/src/fisx_elements.cpp:43-249, /repo/src/fisx_defaultelementsinfo.h)

A file system is a function from path to text (`none`: the file cannot be opened). When a constructor throws there is no
object, so that a constructor returns an `Outcome` and no partial state. The platform is not Windows.
Modelled with them: what `fisx::Elements` forwards to its elements (fisx_elements.cpp:1906-1940, 1985-2007, 1592-1610,
2349-2375) and the descriptive data of an element (name, position in the periodic table, density).
-/

namespace Fisx
namespace Init

/-- fisx_defaultelementsinfo.h:29-38. The density is in kg/m3. -/
structure Info where
  symbol : String
  z : Int
  column : Int
  row : Int
  longName : String
  mass : ℚ
  density : ℚ
deriving DecidableEq, Repr

/-- fisx_defaultelementsinfo.h:40-150, `defaultElementsInfo` (generated from that file). -/
def defaultElements : List Info :=
  [
   ⟨"H", 1, 1, 1, "hydrogen", 126 / 125, 2247 / 25000⟩,
   ⟨"He", 2, 18, 1, "helium", 4003 / 1000, 893 / 5000⟩,
   ⟨"Li", 3, 1, 2, "lithium", 347 / 50, 534⟩,
   ⟨"Be", 4, 2, 2, "beryllium", 2253 / 250, 1848⟩,
   ⟨"B", 5, 13, 2, "boron", 10811 / 1000, 2340⟩,
   ⟨"C", 6, 14, 2, "carbon", 1201 / 100, 1580⟩,
   ⟨"N", 7, 15, 2, "nitrogen", 1751 / 125, 5 / 4⟩,
   ⟨"O", 8, 16, 2, "oxygen", 16, 1429 / 1000⟩,
   ⟨"F", 9, 17, 2, "fluorine", 19, 1108⟩,
   ⟨"Ne", 10, 18, 2, "neon", 20183 / 1000, 4501 / 5000⟩,
   ⟨"Na", 11, 1, 3, "sodium", 22997 / 1000, 970⟩,
   ⟨"Mg", 12, 2, 3, "magnesium", 608 / 25, 1740⟩,
   ⟨"Al", 13, 13, 3, "aluminium", 2697 / 100, 2720⟩,
   ⟨"Si", 14, 14, 3, "silicon", 14043 / 500, 2330⟩,
   ⟨"P", 15, 15, 3, "phosphorus", 1239 / 40, 1820⟩,
   ⟨"S", 16, 16, 3, "sulphur", 16033 / 500, 2000⟩,
   ⟨"Cl", 17, 17, 3, "chlorine", 35457 / 1000, 1560⟩,
   ⟨"Ar", 18, 18, 3, "argon", 4993 / 125, 223 / 125⟩,
   ⟨"K", 19, 1, 4, "potassium", 19551 / 500, 862⟩,
   ⟨"Ca", 20, 2, 4, "calcium", 1002 / 25, 1550⟩,
   ⟨"Sc", 21, 3, 4, "scandium", 1124 / 25, 2992⟩,
   ⟨"Ti", 22, 4, 4, "titanium", 479 / 10, 4540⟩,
   ⟨"V", 23, 5, 4, "vanadium", 25471 / 500, 6110⟩,
   ⟨"Cr", 24, 6, 4, "chromium", 12999 / 250, 7190⟩,
   ⟨"Mn", 25, 7, 4, "manganese", 2747 / 50, 7420⟩,
   ⟨"Fe", 26, 8, 4, "iron", 1117 / 20, 7860⟩,
   ⟨"Co", 27, 9, 4, "cobalt", 58933 / 1000, 8900⟩,
   ⟨"Ni", 28, 10, 4, "nickel", 5869 / 100, 8900⟩,
   ⟨"Cu", 29, 11, 4, "copper", 3177 / 50, 8940⟩,
   ⟨"Zn", 30, 12, 4, "zinc", 3269 / 50, 7140⟩,
   ⟨"Ga", 31, 13, 4, "gallium", 1743 / 25, 5903⟩,
   ⟨"Ge", 32, 14, 4, "germanium", 7259 / 100, 5323⟩,
   ⟨"As", 33, 15, 4, "arsenic", 1873 / 25, 5730⟩,
   ⟨"Se", 34, 16, 4, "selenium", 1974 / 25, 4790⟩,
   ⟨"Br", 35, 17, 4, "bromine", 1998 / 25, 3120⟩,
   ⟨"Kr", 36, 18, 4, "krypton", 419 / 5, 187 / 50⟩,
   ⟨"Rb", 37, 1, 5, "rubidium", 2137 / 25, 1532⟩,
   ⟨"Sr", 38, 2, 5, "strontium", 4381 / 50, 2540⟩,
   ⟨"Y", 39, 3, 5, "yttrium", 17781 / 200, 4405⟩,
   ⟨"Zr", 40, 4, 5, "zirconium", 4561 / 50, 6530⟩,
   ⟨"Nb", 41, 5, 5, "niobium", 46453 / 500, 8570⟩,
   ⟨"Mo", 42, 6, 5, "molybdenum", 1919 / 20, 10220⟩,
   ⟨"Tc", 43, 7, 5, "technetium", 99, 11500⟩,
   ⟨"Ru", 44, 8, 5, "ruthenium", 10107 / 100, 12410⟩,
   ⟨"Rh", 45, 9, 5, "rhodium", 10291 / 100, 12440⟩,
   ⟨"Pd", 46, 10, 5, "palladium", 532 / 5, 12160⟩,
   ⟨"Ag", 47, 11, 5, "silver", 2697 / 25, 10500⟩,
   ⟨"Cd", 48, 12, 5, "cadmium", 11241 / 100, 8650⟩,
   ⟨"In", 49, 13, 5, "indium", 5741 / 50, 7280⟩,
   ⟨"Sn", 50, 14, 5, "tin", 11869 / 100, 5310⟩,
   ⟨"Sb", 51, 15, 5, "antimony", 3044 / 25, 6691⟩,
   ⟨"Te", 52, 16, 5, "tellurium", 638 / 5, 6240⟩,
   ⟨"I", 53, 17, 5, "iodine", 12691 / 100, 4940⟩,
   ⟨"Xe", 54, 18, 5, "xenon", 1313 / 10, 59 / 10⟩,
   ⟨"Cs", 55, 1, 6, "caesium", 13291 / 100, 1873⟩,
   ⟨"Ba", 56, 2, 6, "barium", 3434 / 25, 3500⟩,
   ⟨"La", 57, 3, 6, "lanthanum", 3473 / 25, 6150⟩,
   ⟨"Ce", 58, 4, 9, "cerium", 14013 / 100, 6670⟩,
   ⟨"Pr", 59, 5, 9, "praseodymium", 3523 / 25, 6769⟩,
   ⟨"Nd", 60, 6, 9, "neodymium", 14427 / 100, 6960⟩,
   ⟨"Pm", 61, 7, 9, "promethium", 147, 6782⟩,
   ⟨"Sm", 62, 8, 9, "samarium", 3007 / 20, 7536⟩,
   ⟨"Eu", 63, 9, 9, "europium", 152, 5259⟩,
   ⟨"Gd", 64, 10, 9, "gadolinium", 7863 / 50, 7950⟩,
   ⟨"Tb", 65, 11, 9, "terbium", 15893 / 100, 8272⟩,
   ⟨"Dy", 66, 12, 9, "dysprosium", 16251 / 100, 8536⟩,
   ⟨"Ho", 67, 13, 9, "holmium", 8247 / 50, 8803⟩,
   ⟨"Er", 68, 14, 9, "erbium", 16727 / 100, 9051⟩,
   ⟨"Tm", 69, 15, 9, "thulium", 8447 / 50, 9332⟩,
   ⟨"Yb", 70, 16, 9, "ytterbium", 4326 / 25, 6977⟩,
   ⟨"Lu", 71, 17, 9, "lutetium", 17499 / 100, 9842⟩,
   ⟨"Hf", 72, 4, 6, "hafnium", 357 / 2, 13300⟩,
   ⟨"Ta", 73, 5, 6, "tantalum", 3619 / 20, 16600⟩,
   ⟨"W", 74, 6, 6, "tungsten", 4598 / 25, 19300⟩,
   ⟨"Re", 75, 7, 6, "rhenium", 931 / 5, 21020⟩,
   ⟨"Os", 76, 8, 6, "osmium", 951 / 5, 22500⟩,
   ⟨"Ir", 77, 9, 6, "iridium", 961 / 5, 22420⟩,
   ⟨"Pt", 78, 10, 6, "platinum", 19509 / 100, 21370⟩,
   ⟨"Au", 79, 11, 6, "gold", 986 / 5, 19370⟩,
   ⟨"Hg", 80, 12, 6, "mercury", 20061 / 100, 13546⟩,
   ⟨"Tl", 81, 13, 6, "thallium", 20439 / 100, 11860⟩,
   ⟨"Pb", 82, 14, 6, "lead", 20721 / 100, 11340⟩,
   ⟨"Bi", 83, 15, 6, "bismuth", 209, 9800⟩,
   ⟨"Po", 84, 16, 6, "polonium", 209, 9320⟩,
   ⟨"At", 85, 17, 6, "astatine", 210, 0⟩,
   ⟨"Rn", 86, 18, 6, "radon", 222, 973 / 100⟩,
   ⟨"Fr", 87, 1, 7, "francium", 223, 0⟩,
   ⟨"Ra", 88, 2, 7, "radium", 226, 5500⟩,
   ⟨"Ac", 89, 3, 7, "actinium", 227, 0⟩,
   ⟨"Th", 90, 4, 10, "thorium", 232, 11700⟩,
   ⟨"Pa", 91, 5, 10, "proactinium", 5775897 / 25000, 15370⟩,
   ⟨"U", 92, 6, 10, "uranium", 23807 / 100, 19050⟩,
   ⟨"Np", 93, 7, 10, "neptunium", 237, 20250⟩,
   ⟨"Pu", 94, 8, 10, "plutonium", 2391 / 10, 19700⟩,
   ⟨"Am", 95, 9, 10, "americium", 243, 13670⟩,
   ⟨"Cm", 96, 10, 10, "curium", 247, 13510⟩,
   ⟨"Bk", 97, 11, 10, "berkelium", 247, 13250⟩,
   ⟨"Cf", 98, 12, 10, "californium", 251, 15100⟩,
   ⟨"Es", 99, 13, 10, "einsteinium", 252, 0⟩,
   ⟨"Fm", 100, 14, 10, "fermium", 257, 0⟩,
   ⟨"Md", 101, 15, 10, "mendelevium", 258, 0⟩,
   ⟨"No", 102, 16, 10, "nobelium", 259, 0⟩,
   ⟨"Lr", 103, 17, 10, "lawrencium", 262, 0⟩,
   ⟨"Rf", 104, 4, 7, "rutherfordium", 261, 0⟩,
   ⟨"Db", 105, 5, 7, "dubnium", 262, 0⟩,
   ⟨"Sg", 106, 6, 7, "seaborgium", 266, 0⟩,
   ⟨"Bh", 107, 7, 7, "bohrium", 264, 0⟩,
   ⟨"Hs", 108, 8, 7, "hassium", 269, 0⟩,
   ⟨"Mt", 109, 9, 7, "meitnerium", 268, 0⟩
  ]

variable {K : Type} [Field K] [LinearOrder K]

/-- fisx_element.h:338-345: the descriptive data of an element (the name and the mass are in `LibElement`). -/
structure Periodic (K : Type) where
  longName : String
  column : Int
  row : Int
  density : K
deriving DecidableEq, Repr

/-- fisx_elements.h:578-607: the library, the descriptive data of its elements (in the order of the list of elements),
the EPDL97 object and the names of the loaded files. -/
structure Database (K : Type) where
  lib : Library K
  periodic : List (Periodic K)
  epdl : EPDL97 K
  files : Loader.Kind → SMap String String

/-- The file system. -/
abbrev Files := String → Option Str

/-- fisx_elements.cpp:95-103, 213-225; fisx_epdl97.cpp:78-90: the path of a file of a directory. `substr` throws when the
name of the directory is empty. The last character is compared with a string of two characters. -/
def pathOf (dir file : String) : Outcome String :=
  if dir.toList.length < 1 then .throw .outOfRange
  else if dir.toList.drop (dir.toList.length - 1) = "//".toList then .ok (dir ++ file)
  else .ok (dir ++ "//" ++ file)

/-- The labels and the rows of scan `i` of a file. -/
def scanOf (strtod : Str → K) (r : Specfile.Reader) (i : Nat) : Outcome (Scan K) := do
  let labels ← Specfile.getScanLabels r i
  let rows ← Specfile.getScanData strtod r i
  return { labels := labels, rows := rows }

/-- The scans of a file from scan `i` on, `count` of them. -/
def scansOf (strtod : Str → K) (r : Specfile.Reader) : Nat → Nat → Outcome (List (Scan K))
  | 0, _ => .ok []
  | count + 1, i => do
    let s ← scanOf strtod r i
    let rest ← scansOf strtod r count (i + 1)
    return s :: rest

/-- fisx_epdl97.cpp:125-135: the scans of a file of binding energies are read if there is one (`none`: the caller throws). -/
def bindingScans (strtod : Str → K) (text : Option Str) : Outcome (Option (List (Scan K))) :=
  let r := Specfile.setFileName (Specfile.File.ofText text)
  if Specfile.getNumberOfScans r ≠ 1 then .ok none
  else do
    let l ← scansOf strtod r 1 0
    return some l

/-- fisx_epdl97.cpp:199-212, 269-283: the scans of a file of cross sections are read if there are at least 99. Simplified:
all of them are read before the first one is used, so that among several errors in a file another one may be reported. -/
def crossScans (strtod : Str → K) (text : Option Str) : Outcome (Option (List (Scan K))) :=
  let r := Specfile.setFileName (Specfile.File.ofText text)
  if Specfile.getNumberOfScans r < 99 then .ok none
  else do
    let l ← scansOf strtod r (Specfile.getNumberOfScans r) 0
    return some l

/-- fisx_epdl97.cpp:61-109, `setDataDirectory`, with the files of the directory. -/
def loadEpdl (strtod : Str → K) (fs : Files) (dir : String) : Outcome (EPDL97 K) := do
  let p1 ← pathOf dir "EADL97_BindingEnergies.dat"
  let p2 ← pathOf dir "EPDL97_CrossSections.dat"
  let b ← bindingScans strtod (fs p1)
  let c ← crossScans strtod (fs p2)
  let r := EPDL97.setDataDirectory EPDL97.new b c
  let _ ← r.1
  return r.2

/-- fisx_elements.cpp:176-180: another file of binding energies, if there is one. -/
def otherBinding (strtod : Str → K) (fs : Files) (file : String) (epdl : EPDL97 K) : Outcome (EPDL97 K) :=
  if file.toList.length > 0 then do
    let b ← bindingScans strtod (fs file)
    let r := epdl.loadBindingEnergies b
    let _ ← r.1
    return r.2
  else .ok epdl

variable [Trans K]

omit [Trans K] in
/-- fisx_elements.cpp:189-211: one of the predefined elements (the setters of the descriptive data do not throw; the
atomic masses are not negative). -/
def makeElement (epdl : EPDL97 K) (i : Info) : Outcome (LibElement K) := do
  let e ← (Element.mk? i.z : Outcome (Element K))
  let b ← epdl.getBindingEnergies i.z
  let r := e.setBindingEnergies b
  let _ ← r.1
  let t ← epdl.getTable i.z
  let q := r.2.setAll t
  let _ ← q.1
  return { name := i.symbol, mass := (i.mass : K), data := q.2 }

omit [LinearOrder K] [Trans K] in
/-- fisx_elements.cpp:189-197 with fisx_element.cpp:74-84 (density 1 when there is none in the table). -/
def describe (i : Info) : Periodic K :=
  { longName := i.longName, column := i.column, row := i.row
    density := if i.density > 1 / 10000000000 then ((i.density : ℚ) : K) / 1000 else 1 }

omit [Trans K] in
/-- fisx_elements.cpp:186-210: the loop. -/
def makeElements (epdl : EPDL97 K) : List Info → Outcome (List (LibElement K))
  | [] => .ok []
  | i :: rest => do
    let e ← makeElement epdl i
    let es ← makeElements epdl rest
    return e :: es

/-- fisx_elements.cpp:211: the dictionary, from position `n` on. -/
def makeDict : List Info → Nat → SMap String Nat → SMap String Nat
  | [], _, d => d
  | i :: rest, n, d => makeDict rest (n + 1) (d.insert i.symbol n)

omit [Trans K] in
/-- fisx_elements.cpp:227-248, 119-133: files of shell data of a directory are loaded one after the other. -/
def loadFiles (strtod : Str → K) (fs : Files) (dir : String) : List (Loader.Kind × String × String) → Loader.State K →
    Outcome (Loader.State K)
  | [], s => .ok s
  | (kind, main, file) :: rest, s => do
    let p ← pathOf dir file
    let r := Loader.load kind strtod s main p (fs p)
    let _ ← r.1
    loadFiles strtod fs dir rest r.2

/-- fisx_elements.cpp:142-150, 227-248: the files of shell data, in the order they are loaded. -/
def shellFiles : List (Loader.Kind × String × String) :=
  [(.constants, "K", "EADL97_KShellConstants.dat"), (.constants, "L", "EADL97_LShellConstants.dat"),
   (.constants, "M", "EADL97_MShellConstants.dat"),
   (.nonradiative, "K", "EADL97_KShellNonradiativeRates.dat"), (.nonradiative, "L", "EADL97_LShellNonradiativeRates.dat"),
   (.nonradiative, "M", "EADL97_MShellNonradiativeRates.dat"),
   (.radiative, "K", "EADL97_KShellRadiativeRates.dat"), (.radiative, "L", "EADL97_LShellRadiativeRates.dat"),
   (.radiative, "M", "EADL97_MShellRadiativeRates.dat")]

/-- fisx_elements.cpp:110-115: the files of PyMca, in the order they are loaded. -/
def pymcaFiles : List (Loader.Kind × String × String) :=
  [(.constants, "K", "KShellConstants.dat"), (.constants, "L", "LShellConstants.dat"),
   (.constants, "M", "MShellConstants.dat"),
   (.radiative, "K", "KShellRates.dat"), (.radiative, "L", "LShellRates.dat"), (.radiative, "M", "MShellRates.dat")]

/-- fisx_elements.cpp:162-171: no file of shell data yet. -/
def noFiles : Loader.Kind → SMap String String :=
  fun _ => [("K", ""), ("L", ""), ("M", "")]

omit [Trans K] in
/-- fisx_elements.cpp:138-249, `initialize`. The flag of the escape cache and the members that describe its content are
not initialised: they are arguments. -/
def setUp (on : Bool) (key : EscapeKey K) (strtod : Str → K) (fs : Files) (dir binding : String) :
    Outcome (Database K) := do
  let epdl ← loadEpdl strtod fs dir
  let epdl ← otherBinding strtod fs binding epdl
  let els ← makeElements epdl defaultElements
  let s ← loadFiles strtod fs dir shellFiles { elements := els, files := noFiles }
  return { lib := { dict := makeDict defaultElements 0 [], elements := s.elements, materials := [], escapeOn := on,
                    escape := [], escapeKey := key }
           periodic := defaultElements.map describe, epdl := epdl, files := s.files }

/-- fisx_elements.cpp:616-714 on the database. -/
def withCrossSections (strtod : Str → K) (fs : Files) (file : String) (d : Database K) : Outcome (Database K) := do
  let r := d.lib.setMuFile d.epdl strtod (fs file)
  let _ ← r.1
  return { d with lib := r.2 }

/-- fisx_elements.cpp:58-69, the constructor with a directory, a file of binding energies and one of cross sections. -/
def construct3 (on : Bool) (key : EscapeKey K) (strtod : Str → K) (fs : Files) (dir binding cross : String) :
    Outcome (Database K) := do
  let d ← setUp on key strtod fs dir binding
  if cross.toList.length > 0 then withCrossSections strtod fs cross d else .ok d

omit [Trans K] in
/-- fisx_elements.cpp:43-56, 71-82: the constructor with a directory; `dataDir` is the directory of the environment or of
the installation. -/
def construct1 (on : Bool) (key : EscapeKey K) (strtod : Str → K) (fs : Files) (dataDir dir : String) :
    Outcome (Database K) :=
  if dir.toList.length < 1 then setUp on key strtod fs dataDir "" else setUp on key strtod fs dir ""

/-- fisx_elements.cpp:84-136, the constructor with a directory and a flag. -/
def construct2 (on : Bool) (key : EscapeKey K) (strtod : Str → K) (fs : Files) (dir : String) (pymca : Bool) :
    Outcome (Database K) := do
  let binding ← pathOf dir "BindingEnergies.dat"
  if pymca then do
    let xcom ← pathOf dir "XCOM_CrossSections.dat"
    let d ← setUp on key strtod fs dir binding
    let d ← withCrossSections strtod fs xcom d
    let s ← loadFiles strtod fs dir pymcaFiles { elements := d.lib.elements, files := d.files }
    return { d with lib := { d.lib with elements := s.elements }, files := s.files }
  else setUp on key strtod fs dir ""

/-! ### What is forwarded to an element -/

omit [Trans K] in
/-- The descriptive data of an element. Used by the four methods below (`getElement` gives the reference). -/
def periodicOf (d : Database K) (name : String) : Outcome (Periodic K) :=
  if d.lib.isElementNameDefined name then
    match d.lib.dict.find? name with
    | some i => vget d.periodic i
    | none => .ub .derefEnd
  else .throw .invalidArgument

omit [Trans K] in
/-- fisx_elements.cpp:1921-1924. -/
def getDensity (d : Database K) (name : String) : Outcome K := do
  let p ← periodicOf d name
  return p.density

omit [Trans K] in
/-- fisx_elements.cpp:1926-1929. -/
def getLongName (d : Database K) (name : String) : Outcome String := do
  let p ← periodicOf d name
  return p.longName

omit [Trans K] in
/-- fisx_elements.cpp:1931-1934. -/
def getRow (d : Database K) (name : String) : Outcome Int := do
  let p ← periodicOf d name
  return p.row

omit [Trans K] in
/-- fisx_elements.cpp:1936-1939. -/
def getColumn (d : Database K) (name : String) : Outcome Int := do
  let p ← periodicOf d name
  return p.column

omit [Trans K] in
/-- fisx_elements.cpp:1906-1909. -/
def getAtomicMass (d : Database K) (name : String) : Outcome K := do
  let e ← d.lib.getElement name
  return e.mass

omit [Trans K] in
/-- fisx_elements.cpp:1911-1914. -/
def getAtomicNumber (d : Database K) (name : String) : Outcome Int := do
  let e ← d.lib.getElement name
  return e.data.atomicNumber

omit [Trans K] in
/-- fisx_elements.cpp:1916-1919. -/
def getBindingEnergies (d : Database K) (name : String) : Outcome (SMap Str K) := do
  let e ← d.lib.getElement name
  return e.data.binding

omit [Trans K] in
/-- fisx_element.cpp:1449-1460, `getShell`. -/
def getShell (e : Element K) (sub : Str) : Outcome (Shell K) :=
  match e.shells.find? sub with
  | some s => .ok s
  | none => .throw .invalidArgument

omit [Trans K] in
/-- fisx_elements.cpp:2002-2006 with fisx_element.cpp:1102-1112: the constants of a subshell. -/
def getShellConstants (d : Database K) (name : String) (sub : Str) : Outcome (SMap Str K) := do
  let e ← d.lib.getElement name
  let s ← getShell e.data sub
  return s.constants

omit [Trans K] in
/-- fisx_elements.cpp:1996-2000 with fisx_element.cpp:1006-1015. -/
def getRadiativeTransitions (d : Database K) (name : String) (sub : Str) : Outcome (SMap Str K) := do
  let e ← d.lib.getElement name
  let s ← getShell e.data sub
  return s.radiative

omit [Trans K] in
/-- fisx_elements.cpp:1990-1994 with fisx_element.cpp:1053-1066. -/
def getNonradiativeTransitions (d : Database K) (name : String) (sub : Str) : Outcome (SMap Str K) := do
  let e ← d.lib.getElement name
  let s ← getShell e.data sub
  return s.nonradiative

omit [LinearOrder K] [Trans K] [Field K] in
/-- fisx_element.cpp:281-304, 321-325: the tables as they are returned (nothing before they have been set). -/
def coefficientTable (e : Element K) : SMap Str (List K) :=
  match e.mu with
  | none => []
  | some t => [("coherent".toList, t.coherent), ("compton".toList, t.compton), ("energy".toList, e.muEnergy),
      ("pair".toList, t.pair), ("photoelectric".toList, t.photoelectric), ("total".toList, t.total)]

omit [Trans K] in
/-- fisx_elements.cpp:981-995, `getMassAttenuationCoefficients(name)`. -/
def getCoefficientTable (d : Database K) (name : String) : Outcome (SMap Str (List K)) := do
  let e ← d.lib.getElement name
  return coefficientTable e.data

end Init
end Fisx
