import Verif.Base
import Verif.SMap

/-!
# Model of `fisx::Shell` (/repo/src/fisx_shell.cpp, /repo/src/fisx_shell.h)
-/

namespace Fisx

/-- fisx_shell.h:118-135, the data members. -/
structure Shell (K : Type) where
  name : Str
  mainIndex : Int
  subIndex : Nat
  constants : SMap Str K
  radiative : SMap Str K
  nonradiative : SMap Str K
  auger : SMap Str K
  ck : SMap Str (SMap Str K)
  fluorescence : SMap Str K
deriving DecidableEq, Repr

namespace Shell

variable {K : Type} [Field K] [LinearOrder K]

/-- The label "TOTAL" (fisx_shell.cpp:329, 378). -/
def total : Str := "TOTAL".toList

/-- The decimal digit characters of fisx_shell.cpp:51 and 375 (only indices below 10 are used). -/
def digit (i : Nat) : Char := Char.ofNat (48 + i)

/-- fisx_shell.cpp:128, 445, 493: the name "fij" of a Coster-Kronig yield. -/
def fij (name : Str) (i : Nat) : Str := 'f' :: ((name.drop 1).take 1 ++ [digit i])

/-- `isdigit` and the value of a digit. -/
def digitVal (c : Char) : Option Nat :=
  if c.isDigit then some (c.toNat - 48) else none

/-- fisx_shell.cpp:57-77, the main index from the name: -1 when not a K, L or M name. -/
def mainIndexOf (name : Str) : Int :=
  if name.take 1 = ['M'] ∧ name.length = 2 then 2
  else if name.take 1 = ['L'] ∧ name.length = 2 then 1
  else if name.take 1 = ['K'] ∧ name.length = 1 then 0
  else -1

/-- fisx_shell.cpp:114-131, the constants of a new shell: omega and the fij of the outer subshells. -/
def initialConstants (name : Str) (main : Int) (idx : Nat) : SMap Str K :=
  let base : SMap Str K := SMap.insert [] "omega".toList 0
  if main > 0 then
    let maxSub := if main = 1 then 3 else 5
    ((List.range' (idx + 1) (maxSub - idx)).foldl (fun m i => m.insert (fij name i) 0) base)
  else base

/-- fisx_shell.cpp:44-132, the constructor. -/
def mk? (name : Str) : Outcome (Shell K) :=
  if name.length > 2 then .throw .invalidArgument
  else if mainIndexOf name < 0 then .throw .invalidArgument
  else
    let build (idx : Nat) : Outcome (Shell K) :=
      .ok { name := name, mainIndex := mainIndexOf name, subIndex := idx,
            constants := initialConstants name (mainIndexOf name) idx,
            radiative := [], nonradiative := [], auger := [], ck := [], fluorescence := [] }
    match name with
    | [_, c] =>
      match digitVal c with
      | none => .throw .invalidArgument
      | some idx =>
        if idx < 1 then .throw .invalidArgument
        else if mainIndexOf name = 1 ∧ idx > 3 then .throw .invalidArgument
        else if mainIndexOf name = 2 ∧ idx > 5 then .throw .invalidArgument
        else build idx
    | _ => build 0

/-- fisx_shell.cpp:204-256, what happens to one label: the key under which the rate is stored, or `none`
when the label is rejected with an exception. -/
def radiativeKey (name label : Str) : Option Str :=
  let t := label.upper
  let t := if t.length = 2 then t ++ ['2'] else t
  if t.length = 5 ∧ t ≠ total then
    if (t.getD 3 ' ').isDigit ∧ (t.getD 4 ' ').isDigit then some (t.take 4) else none
  else if t.take name.length = name then some t
  else if t = total then some t
  else none

/-- fisx_shell.cpp:202-257, the loop over the labels from index `i`. It returns the map as it is when the
loop ends, normally or not. -/
def radiativeLoop (name : Str) (labels : List Str) (values : List K) (i : Nat) (m : SMap Str K) :
    Outcome Unit × SMap Str K :=
  match labels with
  | [] => (.ok (), m)
  | l :: rest =>
    match radiativeKey name l with
    | none => (.throw .invalidArgument, m)
    | some k =>
      match vget values i with
      | .ok v => radiativeLoop name rest values (i + 1) (m.insert k v)
      | _ => (.ub .outOfBounds, m)

/-- fisx_shell.cpp:326-360, `_updateFluorescenceRatios`. -/
def fluorescenceRatios (rad : SMap Str K) : SMap Str K :=
  let t := ((rad.filter (fun e => e.1 ≠ total)).map Prod.snd).sum
  rad.foldl (fun m e => if e.2 > 0 ∧ e.1 ≠ total then m.insert e.1 (e.2 / t) else m) []

/-- fisx_shell.cpp:193-259, `setRadiativeTransitions(labels, values)`. -/
def setRadiative (s : Shell K) (labels : List Str) (values : List K) : Outcome Unit × Shell K :=
  match radiativeLoop s.name labels values 0 [] with
  | (.ok (), m) => (.ok (), { s with radiative := m, fluorescence := fluorescenceRatios m })
  | (o, m) => (o, { s with radiative := m })

/-- fisx_shell.cpp:261-282, the map overload. -/
def setRadiativeMap (s : Shell K) (m : SMap Str K) : Outcome Unit × Shell K :=
  s.setRadiative (m.map Prod.fst) (m.map Prod.snd)

/-- fisx_shell.cpp:153-156, the loop of `setNonradiativeTransitions`. -/
def nonradiativeLoop (labels : List Str) (values : List K) (i : Nat) (m : SMap Str K) :
    Outcome Unit × SMap Str K :=
  match labels with
  | [] => (.ok (), m)
  | l :: rest =>
    match vget values i with
    | .ok v => nonradiativeLoop rest values (i + 1) (m.insert l.upper v)
    | _ => (.ub .outOfBounds, m)

/-- fisx_shell.cpp:441-444, the prefix of the Coster-Kronig transitions to subshell `i`. -/
def ckPrefix (name : Str) (i : Nat) : Str := name ++ ['-'] ++ name.take 1 ++ [digit i]

/-- `a.substr(0, p.size()) == p`. -/
def startsWith (a p : Str) : Bool := a.take p.length = p

/-- fisx_shell.cpp:446-459, the positive transitions of one Coster-Kronig group, not yet normalised. -/
def ckGroupRaw (nonrad : SMap Str K) (pre : Str) : SMap Str K :=
  nonrad.foldl (fun m e => if e.2 > 0 ∧ startsWith e.1 pre = true then m.insert e.1 e.2 else m) []

/-- fisx_shell.cpp:446-458, the accumulated `tmpTotal` of the group. -/
def ckGroupTotal (nonrad : SMap Str K) (pre : Str) : K :=
  ((nonrad.filter (fun e => decide (e.2 > 0 ∧ startsWith e.1 pre = true))).map Prod.snd).sum

/-- fisx_shell.cpp:460-469, normalisation of the group and its "TOTAL" entry. -/
def ckGroup (nonrad : SMap Str K) (pre : Str) : SMap Str K :=
  let raw := ckGroupRaw nonrad pre
  let t := ckGroupTotal nonrad pre
  let norm : SMap Str K := if t > 0 then raw.map (fun e => (e.1, e.2 / t)) else raw
  norm.insert total t

/-- fisx_shell.cpp:415-438, the subshell indices to which Coster-Kronig transitions are possible. -/
def ckTargets (s : Shell K) : List Nat :=
  if s.name = ['K'] ∨ s.name = ['L', '3'] ∨ s.name = ['M', '5'] then []
  else
    let subMax := if s.mainIndex = 1 then 3 else 5
    List.range' (s.subIndex + 1) (subMax - s.subIndex)

/-- fisx_shell.cpp:369-515, `_updateNonradiativeRatios`. -/
def updateNonradiative (s : Shell K) : Shell K :=
  let sum := ((s.nonradiative.filter (fun e => e.1 ≠ total)).map Prod.snd).sum
  -- L407-412
  let nonrad := if s.nonradiative.mem total then s.nonradiative else s.nonradiative.insert total sum
  -- L439-471
  let ck : SMap Str (SMap Str K) :=
    s.ckTargets.foldl (fun m i => m.insert (fij s.name i) (ckGroup nonrad (ckPrefix s.name i))) []
  let totalCK := (s.ckTargets.map (fun i => ckGroupTotal nonrad (ckPrefix s.name i))).sum
  -- L478
  let totalAuger := (nonrad.find? total).getD 0 - totalCK
  -- L480-512: positive entries, not in a Coster-Kronig group (only looked up when totalCK > 0), not TOTAL
  let inCK (k : Str) : Bool :=
    decide (totalCK > 0) && s.ckTargets.any (fun i => (ckGroup nonrad (ckPrefix s.name i)).mem k)
  let auger : SMap Str K := nonrad.foldl (fun (m : SMap Str K) e =>
      if e.2 > 0 ∧ inCK e.1 = false ∧ e.1 ≠ total then m.insert e.1 (e.2 / totalAuger) else m) []
  { s with nonradiative := nonrad, ck := ck, auger := auger.insert total totalAuger }

/-- fisx_shell.cpp:144-158, `setNonradiativeTransitions(labels, values)`. -/
def setNonradiative (s : Shell K) (labels : List Str) (values : List K) : Outcome Unit × Shell K :=
  match nonradiativeLoop labels values 0 [] with
  | (.ok (), m) => (.ok (), updateNonradiative { s with nonradiative := m })
  | (o, m) => (o, { s with nonradiative := m })

/-- fisx_shell.cpp:160-181, the map overload. -/
def setNonradiativeMap (s : Shell K) (m : SMap Str K) : Outcome Unit × Shell K :=
  s.setNonradiative (m.map Prod.fst) (m.map Prod.snd)

/-- fisx_shell.cpp:183-191, the `char*` overload: unlike the others it does not empty the current map. -/
def setNonradiativeChars (s : Shell K) (entries : List (Str × K)) : Outcome Unit × Shell K :=
  (.ok (), updateNonradiative
    { s with nonradiative := entries.foldl (fun m e => m.insert e.1.upper e.2) s.nonradiative })

/-- fisx_shell.cpp:645-656, the loop of `setShellConstants`. -/
def constantsLoop (input : List (Str × K)) (c : SMap Str K) : Outcome Unit × SMap Str K :=
  match input with
  | [] => (.ok (), c)
  | (k, v) :: rest =>
    if c.mem k then constantsLoop rest (c.insert k v) else (.throw .invalidArgument, c)

/-- fisx_shell.cpp:640-657, `setShellConstants`. -/
def setShellConstants (s : Shell K) (input : SMap Str K) : Outcome Unit × Shell K :=
  let r := constantsLoop input s.constants
  (r.1, { s with constants := r.2 })

/-- `std::equal(d.rbegin(), d.rend(), k.rbegin())` (fisx_shell.cpp:565, 592) on reversed strings: true when `k`
ends with `d`; it reads before the beginning of `k` when `k` is too short and all it has matches. -/
def equalRev (drev krev : Str) : Outcome Bool :=
  match drev, krev with
  | [], _ => .ok true
  | _ :: _, [] => .ub .outOfBounds
  | a :: d, b :: k => if a = b then equalRev d k else .ok false

/-- fisx_shell.cpp:555-561, 578-584: sum over the entries with a given prefix. -/
def prefixSum (m : SMap Str K) (p : Str) : K := ((m.filter (fun e => startsWith e.1 p)).map Prod.snd).sum

/-- fisx_shell.cpp:563-569, 590-596: sum over the entries with a given suffix. -/
def suffixSum (m : SMap Str K) (d : Str) : Outcome K :=
  match m with
  | [] => .ok 0
  | (k, v) :: rest => do
    let b ← equalRev d.reverse k.reverse
    let r ← suffixSum rest d
    return if b then v + r else r

/-- fisx_shell.cpp:572-597, the Coster-Kronig part: each group gives prefix sum plus suffix sum. -/
def ckRaw (name : Str) (groups : SMap Str (SMap Str K)) (d : Str) : Outcome (SMap Str K) :=
  match groups with
  | [] => .ok []
  | (f, g) :: rest => do
    let suf ← suffixSum g d
    let r ← ckRaw name rest d
    return (f, prefixSum g (name ++ ['-'] ++ d) + suf) :: r

/-- fisx_shell.cpp:616-634 for the Coster-Kronig entries: multiply each one by its yield; a group without
constant would dereference `end()`. -/
def ckScale (constants : SMap Str K) (raw : SMap Str K) : Outcome (SMap Str K) :=
  match raw with
  | [] => .ok []
  | (f, v) :: rest =>
    match constants.find? f with
    | some c => do
      let r ← ckScale constants rest
      return (f, v * c) :: r
    | none => .ub .derefEnd

/-- The three kinds of direct vacancy transfer probabilities of one call. -/
structure Transfer (K : Type) where
  fluorescence : K
  auger : K
  ck : SMap Str K
deriving DecidableEq, Repr

/-- All the vacancies a call reports (Element::getCascadeModifiedVacancyDistribution,
fisx_element.cpp:1281-1285, adds up the whole output map). -/
def Transfer.sum (t : Transfer K) : K := t.fluorescence + t.auger + SMap.total t.ck

/-- fisx_shell.cpp:517-636, `getDirectVacancyTransferRatios`. The output map of the C++ code
("fluorescence", "auger", "fij"...) is the structure `Transfer`. -/
def getDirectVacancyTransferRatios (s : Shell K) (d : Str) : Outcome (Transfer K) :=
  if d.length ≠ 2 then .throw .invalidArgument
  else do
    let f := (s.fluorescence.find? (s.name ++ d)).getD 0
    let asuf ← suffixSum s.auger d
    let a := prefixSum s.auger (s.name ++ ['-'] ++ d) + asuf
    let raw ← ckRaw s.name s.ck d
    let sum := SMap.total s.constants
    if sum > 10001 / 10000 then .throw .domainError
    else
      match s.constants.find? "omega".toList with
      | none => .ub .derefEnd
      | some omega => do
        let ck ← ckScale s.constants raw
        return { fluorescence := f * omega, auger := a * (1 - sum), ck := ck }

/-- fisx_shell.cpp:362-367, `getFluorescenceYield`. -/
def getFluorescenceYield (s : Shell K) : Outcome K :=
  match s.constants.find? "omega".toList with
  | some c => .ok c
  | none => .ub .derefEnd

/-- The mutating API. -/
inductive Op (K : Type)
  | setRadiative (labels : List Str) (values : List K)
  | setRadiativeMap (m : SMap Str K)
  | setNonradiative (labels : List Str) (values : List K)
  | setNonradiativeMap (m : SMap Str K)
  | setNonradiativeChars (entries : List (Str × K))
  | setShellConstants (m : SMap Str K)

/-- One call. -/
def step (s : Shell K) : Op K → Outcome Unit × Shell K
  | .setRadiative l v => s.setRadiative l v
  | .setRadiativeMap m => s.setRadiativeMap m
  | .setNonradiative l v => s.setNonradiative l v
  | .setNonradiativeMap m => s.setNonradiativeMap m
  | .setNonradiativeChars e => s.setNonradiativeChars e
  | .setShellConstants m => s.setShellConstants m

/-- A history (exceptions are caught by the caller). -/
def run (s : Shell K) (ops : List (Op K)) : Shell K := ops.foldl (fun s op => (s.step op).2) s

end Shell
end Fisx
