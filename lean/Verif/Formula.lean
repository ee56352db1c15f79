import Verif.Base
import Verif.SMap

/-!
# Model of `Elements::parseFormula` (/repo/src/fisx_elements.cpp:1612-1830)

A string is a list of (ASCII) characters. `Elements::toString` (fisx_elements.cpp:1977-1983, `ostream << double`) is a
parameter `sh` of the model: what is assumed of it is stated in each theorem.
-/

namespace Fisx
namespace Formula

variable {K : Type} [Field K] [LinearOrder K]

/-! ### Numbers -/

/-- The value of a digit. -/
def digitVal (c : Char) : Nat := c.toNat - 48

/-- The value of a sequence of digits. -/
def natOf (s : List Char) : Nat := s.foldl (fun n c => 10 * n + digitVal c) 0

/-- An unsigned decimal number at the start of a string. -/
def unsigned (s : List Char) : Option K :=
  let ip := s.takeWhile Char.isDigit
  let fp := match s.dropWhile Char.isDigit with
    | '.' :: r => r.takeWhile Char.isDigit
    | _ => []
  if ip = [] ∧ fp = [] then none else some ((natOf ip : K) + (natOf fp : K) / (10 : K) ^ fp.length)

/-- fisx_elements.cpp:1964-1975, `stringToDouble` (`istream >> double`): the number at the start of the string, what
follows is ignored. The strings it is called with (L1720, L1768, L1807) contain no letters, hence no exponents. The
value is exact. -/
def stringToDouble (s : List Char) : Option K :=
  match s with
  | '-' :: r => (unsigned r).map (fun x => -x)
  | '+' :: r => unsigned r
  | r => unsigned r

/-! ### Formulas without parentheses -/

/-- The variables of the loop of fisx_elements.cpp:1757-1796. -/
structure Scan (K : Type) where
  found : List (List Char × K)
  lastKey : List Char
  lastNumber : List Char
  parsingKey : Bool

/-- fisx_elements.cpp:1763-1777: the atom read so far is stored (`none`: the number is not valid, L1771). -/
def flush (st : Scan K) : Option (List (List Char × K)) :=
  if st.lastKey = [] then some st.found
  else if st.lastNumber = [] then some (st.found ++ [(st.lastKey, 1)])
  else match stringToDouble st.lastNumber with
    | some x => some (st.found ++ [(st.lastKey, x)])
    | none => none

/-- fisx_elements.cpp:1761-1794: one character. -/
def flatChar (st : Scan K) (c : Char) : Option (Scan K) :=
  if c.isUpper then
    match flush st with
    | some f => some { found := f, lastKey := [c], lastNumber := [], parsingKey := true }
    | none => none
  else if c.isLower then some { st with lastKey := st.lastKey ++ [c] }
  else some { st with lastNumber := st.lastNumber ++ [c], parsingKey := false }

/-- fisx_elements.cpp:1759-1796. -/
def flatLoop (s : List Char) (st : Scan K) : Option (Scan K) :=
  match s with
  | [] => some st
  | c :: rest =>
    match flatChar st c with
    | some st => flatLoop rest st
    | none => none

/-- fisx_elements.cpp:1797-1812: the last atom. -/
def flatEnd (st : Scan K) : Option (List (List Char × K)) :=
  if st.parsingKey then some (st.found ++ [(st.lastKey, 1)])
  else match stringToDouble st.lastNumber with
    | some x => some (st.found ++ [(st.lastKey, x)])
    | none => none

/-- fisx_elements.cpp:1817-1827: equal names are added. -/
def addAtom (m : SMap String K) (a : List Char × K) : SMap String K :=
  match m.find? (String.ofList a.1) with
  | none => m.insert (String.ofList a.1) a.2
  | some x => m.insert (String.ofList a.1) (x + a.2)

/-- fisx_elements.cpp:1749-1829: a string without parentheses (the empty map when it is not valid). -/
def parseFlat (s : List Char) : SMap String K :=
  match s with
  | [] => []
  | c :: _ =>
    if c.isUpper then
      match flatLoop s { found := [], lastKey := [], lastNumber := [], parsingKey := false } with
      | some st =>
        match flatEnd st with
        | some l => l.foldl addAtom []
        | none => []
      | none => []
    else []

/-! ### Parentheses -/

/-- fisx_elements.cpp:1638: what the first character cannot be. -/
def badStart (s : List Char) : Bool :=
  match s with
  | [] => true
  | c :: _ => c.isLower || c.isDigit

/-- fisx_elements.cpp:1678-1690: the position of the opening parenthesis; 0 when there are several, none of them
before the first closing one. -/
def openPos (s : List Char) : Nat :=
  if s.count '(' > 1 then
    ((List.range s.length).filter (fun i => decide (s[i]? = some '(' ∧ i < s.idxOf ')'))).getLastD 0
  else s.idxOf '('

/-- fisx_elements.cpp:1692-1698: the text between the parentheses. `p2 - p1 - 1` is unsigned: when the closing one
comes first it is a huge number and `substr` gives everything after `p1`. `none`: L1693-1697. -/
def inner (s : List Char) (p1 p2 : Nat) : Option (List Char) :=
  if p1 < p2 then
    if p2 - p1 - 1 < 1 then none else some ((s.drop (p1 + 1)).take (p2 - p1 - 1))
  else some (s.drop (p1 + 1))

/-- The characters that end the number of a group (fisx_elements.cpp:1714). -/
def stops (c : Char) : Bool := c.isUpper || c.isLower || c == '(' || c == ')'

/-- fisx_elements.cpp:1704-1724: the factor of the group closed at `p2` and the position after it. For a group at the
end of the string `i` keeps the value the loop of L1645 left. `none`: no valid number. -/
def groupFactor (s : List Char) (p2 : Nat) : Option (K × Nat) :=
  if p2 + 1 = s.length then some (1, s.length)
  else
    let number := (s.drop (p2 + 1)).takeWhile (fun c => !stops c)
    match stringToDouble number with
    | some x => some (x, p2 + 1 + number.length)
    | none => none

/-- fisx_elements.cpp:1739-1742: the group without parentheses. -/
def expand (sh : K → List Char) (m : SMap String K) (factor : K) : List Char :=
  m.flatMap (fun e => e.1.toList ++ sh (e.2 * factor))

/-- fisx_elements.cpp:1731-1746: the new formula. -/
def rewritten (sh : K → List Char) (s : List Char) (p1 : Nat) (m : SMap String K) (factor : K) (i : Nat) : List Char :=
  s.take p1 ++ expand sh m factor ++ (if i < s.length - 1 then s.drop i else [])

/-- fisx_elements.cpp:1612-1830, `parseFormula`. The depth of the recursion is bounded by the fuel. -/
def parse (sh : K → List Char) (fuel : Nat) (s : List Char) : Outcome (SMap String K) :=
  match fuel with
  | 0 => .diverge
  | fuel + 1 =>
    if badStart s then .ok []
    else if s.count '(' ≠ s.count ')' then .ok []
    else if ' ' ∈ s then .ok []
    else if s.count '(' > 0 then
      match inner s (openPos s) (s.idxOf ')') with
      | none => .ok []
      | some t => do
        let m ← parse sh fuel t
        if m = [] then return []
        else match groupFactor s (s.idxOf ')') with
          | none => return []
          | some (f, i) => parse sh fuel (rewritten sh s (openPos s) m f i)
    else .ok (parseFlat s)

/-- The call returns `m`. -/
def Returns (sh : K → List Char) (s : List Char) (m : SMap String K) : Prop := ∃ n, parse sh n s = .ok m

/-- The call never returns. -/
def NeverReturns (sh : K → List Char) (s : List Char) : Prop := ∀ n, parse sh n s = .diverge

/-- `toString` for the examples: integers below a million, and one beyond. -/
def exampleShow (x : ℚ) : List Char :=
  if x.den = 1 ∧ 0 ≤ x ∧ x < 1000000 then Nat.toDigits 10 x.num.toNat
  else if x = 1000000 then "1e+06".toList else "?".toList

example : parse exampleShow 9 "Ca(OH)2".toList = .ok [("Ca", 1), ("H", 2), ("O", 2)] := by decide +kernel
example : parse exampleShow 9 "(NH4)2S".toList = .ok [("H", 8), ("N", 2)] := by decide +kernel
example : parse exampleShow 9 "Al2((SO4)3H2.5)2C2".toList = .ok [("Al", 2), ("C",2), ("H", 5), ("O", 24), ("S", 6)] := by
  decide +kernel
example : parse exampleShow 9 "(H500000)2".toList = .ok [("He", 1)] := by decide +kernel

end Formula
end Fisx
