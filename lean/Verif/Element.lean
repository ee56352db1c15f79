import Verif.Shell

/-!
# Model of `fisx::Element` (/repo/src/fisx_element.cpp, /repo/src/fisx_element.h)

Not modelled: name, long name, density, mass, row and column (plain values), console output.
`extractEdgeEnergiesFromMassAttenuationCoefficients` is in `Verif.Install`.
Numbers are elements of an ordered field; the tests for non-finite results (fisx_element.cpp:453-462, 871-881)
therefore never fire in the model. `log` and `exp` are parameters (class `Trans`), instantiated with the real
functions where their meaning matters.
-/

namespace Fisx

/-- The C functions `log` and `exp`. -/
class Trans (K : Type) where
  log : K → K
  exp : K → K

/-- `v[i]` with a signed index. -/
def vgetI {α : Type} (v : List α) (i : Int) : Outcome α :=
  if i < 0 then .ub .outOfBounds else vget v i.toNat

/-- One emitted line: the map {"energy", "rate"} (fisx_element.cpp:1392, 1441). -/
structure Line (K : Type) where
  energy : K
  rate : K
deriving DecidableEq, Repr

/-- One excitation factor: the map {"energy", "rate", "factor"} (fisx_element.cpp:1556-1561). -/
structure Factor (K : Type) where
  energy : K
  rate : K
  factor : K
deriving DecidableEq, Repr

/-- The tabulated coefficients (fisx_element.cpp:281-304); the key "energy" is the member `muEnergy`. -/
structure MuTable (K : Type) where
  coherent : List K
  compton : List K
  pair : List K
  photoelectric : List K
  total : List K
deriving DecidableEq, Repr

/-- The coefficients at one energy (result of fisx_element.cpp:327-464). The partial photoelectric ones are a
map with the ten shell keys. -/
structure Mu (K : Type) where
  energy : K
  partials : SMap Str K
  coherent : K
  compton : K
  pair : K
  photoelectric : K
  total : K
deriving DecidableEq, Repr

/-- fisx_element.h:383-430, the data members. -/
structure Element (K : Type) where
  atomicNumber : Int
  binding : SMap Str K
  muEnergy : List K
  mu : Option (MuTable K)
  partialE : SMap Str (List K)
  partialV : SMap Str (List K)
  cacheOn : Bool
  muCache : SMap K (Mu K)
  excCache : SMap K (SMap Str (Factor K))
  shells : SMap Str (Shell K)
  cascadeOn : Bool
  cascadeCache : SMap Str (SMap Str (Line K))
deriving DecidableEq, Repr

namespace Element

variable {K : Type} [Field K] [LinearOrder K]

/-- fisx_element.h:407. -/
def cacheMaximumSize : Nat := 10000

/-- fisx_element.cpp:1121, 1243, 1300: the K, L and M subshells from the innermost. -/
def keys : List Str :=
  ["K".toList, "L1".toList, "L2".toList, "L3".toList,
   "M1".toList, "M2".toList, "M3".toList, "M4".toList, "M5".toList]

/-- fisx_element.cpp:603, 685: key of the remaining shells. -/
def allOther : Str := "all other".toList

/-- fisx_element.cpp:603, 685, 947: the ten keys of the photoelectric data. -/
def photoShells : List Str := keys ++ [allOther]

/-- fisx_element.cpp:601-614. -/
def emptyPartials : SMap Str (List K) := SMap.ofList (photoShells.map (fun s => (s, [])))

/-- fisx_element.cpp:66-90 with 1480-1488: the constructor rejects non-positive atomic numbers. -/
def mk? (z : Int) : Outcome (Element K) :=
  if z < 1 then .throw .invalidArgument
  else .ok { atomicNumber := z, binding := [], muEnergy := [], mu := none,
             partialE := emptyPartials, partialV := emptyPartials,
             cacheOn := false, muCache := [], excCache := [], shells := [],
             cascadeOn := false, cascadeCache := [] }

/-- fisx_element.cpp:1480-1488. -/
def setAtomicNumber (e : Element K) (z : Int) : Outcome Unit × Element K :=
  if z < 1 then (.throw .invalidArgument, e) else (.ok (), { e with atomicNumber := z })

/-- fisx_element.cpp:1668-1672. -/
def clearCache (e : Element K) : Element K := { e with excCache := [], muCache := [] }

/-- fisx_element.cpp:154-176, the loop. -/
def bindingLoop (input : List (Str × K)) (b : SMap Str K) (sh : SMap Str (Shell K)) :
    Outcome Unit × SMap Str K × SMap Str (Shell K) :=
  match input with
  | [] => (.ok (), b, sh)
  | (k, v) :: rest =>
    let b := b.insert k v
    if k.take 1 = ['K'] ∨ k.take 1 = ['L'] ∨ k.take 1 = ['M'] then
      if sh.mem k then bindingLoop rest b sh
      else match Shell.mk? k with
        | .ok s => bindingLoop rest b (sh.insert k s)
        | .throw x => (.throw x, b, sh)
        | .ub u => (.ub u, b, sh)
        | .diverge => (.diverge, b, sh)
    else bindingLoop rest b sh

/-- fisx_element.cpp:145-177: new binding energies and new shells; none of the caches is touched. -/
def setBindingEnergies (e : Element K) (input : SMap Str K) : Outcome Unit × Element K :=
  let r := bindingLoop input [] []
  (r.1, { e with binding := r.2.1, shells := r.2.2 })

/-- fisx_element.cpp:258-269: the energies are in ascending order. -/
def ascending (l : List K) : Bool :=
  match l with
  | [] => true
  | [_] => true
  | a :: b :: r => if b < a then false else ascending (b :: r)

/-- fisx_element.cpp:215-305, `setMassAttenuationCoefficients`; `pair` empty means zeros (also L206-213). -/
def setMassAttenuationCoefficients (e : Element K) (energies photo coherent compton pair : List K) :
    Outcome Unit × Element K :=
  if photo.length ≠ energies.length then (.throw .invalidArgument, e)
  else if compton.length ≠ energies.length then (.throw .invalidArgument, e)
  else if coherent.length ≠ energies.length then (.throw .invalidArgument, e)
  else if pair.length > 0 ∧ pair.length ≠ energies.length then (.throw .invalidArgument, e)
  else if ascending energies = false then (.throw .invalidArgument, e)
  else
    let p := if pair.length > 0 then pair else List.replicate energies.length 0
    -- L299-304: total = coherent + (compton + pair + photoelectric), element by element
    let t := List.zipWith (· + ·) coherent
      (List.zipWith (· + ·) (List.zipWith (· + ·) compton p) photo)
    (.ok (), { e.clearCache with
      muEnergy := energies,
      mu := some { coherent := coherent, compton := compton, pair := p, photoelectric := photo, total := t } })

/-- fisx_element.cpp:1565-1596 (the range is sorted, so `lower_bound` is the first position not below `x`). -/
def interpolationIndices (vec : List K) (x : K) : Int × Int :=
  let p := vec.findIdx (fun v => decide (¬ v < x))
  if p = vec.length then ((vec.length : Int) - 2, (vec.length : Int) - 1)
  else if p > 0 then ((p : Int) - 1, (p : Int)) else (0, 1)

/-- fisx_element.cpp:368-394 and 719-749: indices and abscissas, moved to the two copies of a repeated energy
when the query is exactly there. -/
def bracket (vec : List K) (x : K) : Outcome (Int × Int × K × K) := do
  let i := interpolationIndices vec x
  let x0 ← vgetI vec i.1
  let x1 ← vgetI vec i.2
  if x = x1 ∧ i.2 + 1 < (vec.length : Int) then do
    let nxt ← vgetI vec (i.2 + 1)
    if nxt = x1 then return (i.2, i.2 + 1, x1, nxt) else return (i.1, i.2, x0, x1)
  else return (i.1, i.2, x0, x1)

variable [Trans K]

/-- fisx_element.cpp:415-431, 787-790, 798-830: `y = exp((log y0 log(x1/x) + log y1 log(x/x0)) / log(x1/x0))`. -/
def logLog (x x0 x1 y0 y1 : K) : K :=
  let B := 1 / Trans.log (x1 / x0)
  let A := Trans.log (x1 / x) * B
  let B := B * Trans.log (x / x0)
  Trans.exp (A * Trans.log y0 + B * Trans.log y1)

/-- fisx_element.cpp:428-444, 806-820: the interpolation with the special cases of null values. -/
def logLogGuarded (x x0 x1 y0 y1 : K) : K :=
  if y0 > 0 ∧ y1 > 0 then logLog x x0 x1 y0 y1
  else if y1 > 0 ∧ x - x0 > 1 / 100000 then
    Trans.exp (1 / Trans.log (x1 / x0) * Trans.log (x / x0) * Trans.log y1)
  else 0

/-- fisx_element.cpp:778-781, 838-841: first index from `i` on with a positive value; reads past the end when
there is none. -/
def firstPositive (v : List K) (i : Nat) : Outcome Nat :=
  match (v.drop i).findIdx? (fun y => decide (y > 0)) with
  | some j => .ok (i + j)
  | none => .ub .outOfBounds

/-- fisx_element.cpp:717-870: the coefficient of one shell; `other` is the test `shell == "all other"`. -/
def partialValue (other : Bool) (E V : List K) (x : K) : Outcome K := do
  let (i1, i2, x0, x1) ← bracket E x
  if i1 = i2 ∨ x1 - x0 < 5 / 10000000000 then
    if other then vgetI V i2
    else do
      let y0 ← vgetI V i1
      if y0 > 0 then return y0
      else do
        let y1 ← vgetI V i2
        if x1 - x0 < 5 / 10000000000 ∧ y1 > 0 then return y1
        else do
          let w ← firstPositive V i1.toNat
          let y0 ← vget V w
          let y1 ← vget V (w + 1)
          let x0w ← vget E w
          let x1w ← vget E (w + 1)
          return logLog x x0w x1w y0 y1
  else do
    let y0 ← vgetI V i1
    let y1 ← vgetI V i2
    if other then return logLogGuarded x x0 x1 y0 y1
    else if y0 > 0 then return logLog x x0 x1 y0 y1
    else do
      let w ← firstPositive V i1.toNat
      let x0w ← vget E w
      let x1w ← vget E (w + 1)
      let w := if x1w - x0w < 1 / 10000000000 then w + 1 else w
      let x0w ← vget E w
      let x1w ← vget E (w + 1)
      let y0 ← vget V w
      let y1 ← vget V (w + 1)
      return Trans.exp (Trans.log y0 + (Trans.log (y1 / y0) / Trans.log (x1w / x0w)) * Trans.log (x / x0w))

/-- fisx_element.cpp:704-882, the loop over the ten shells. -/
def partialsLoop (e : Element K) (x : K) (shells : List Str) (acc : SMap Str K) : Outcome (SMap Str K) :=
  match shells with
  | [] => .ok acc
  | s :: rest =>
    if s ≠ allOther then
      match e.binding.find? s with
      | none => .ub .derefEnd
      | some b =>
        if b = 0 ∨ x < b then partialsLoop e x rest (acc.insert s 0)
        else do
          let v ← partialValue false ((e.partialE.find? s).getD []) ((e.partialV.find? s).getD []) x
          partialsLoop e x rest (acc.insert s v)
    else do
      let v ← partialValue true ((e.partialE.find? s).getD []) ((e.partialV.find? s).getD []) x
      partialsLoop e x rest (acc.insert s v)

/-- fisx_element.cpp:682-885, `getPartialPhotoelectricMassAttenuationCoefficients`. -/
def getPartials (e : Element K) (x : K) : Outcome (SMap Str K) := partialsLoop e x photoShells []

/-- fisx_element.cpp:402-447: one of coherent, compton and pair. -/
def processValue (b : Int × Int × K × K) (x : K) (table : List K) : Outcome K :=
  let (i1, i2, x0, x1) := b
  if i1 = i2 ∨ x1 - x0 < 5 / 10000000000 then vgetI table i1
  else do
    let y0 ← vgetI table i1
    let y1 ← vgetI table i2
    return logLogGuarded x x0 x1 y0 y1

/-- The value of a key read with `operator[]` on a map of numbers (0 when absent). -/
def at0 (m : SMap Str K) (k : Str) : K := (m.find? k).getD 0

/-- fisx_element.cpp:352-366: the partial coefficients, all zero when no partial table was given. -/
def partialsOrZero (e : Element K) (x : K) : Outcome (SMap Str K) :=
  if e.partialE.any (fun p => decide (p.2.length > 0)) then getPartials e x
  else .ok (SMap.ofList (photoShells.map (fun s => (s, (0 : K)))))

/-- fisx_element.cpp:352-463: the coefficients, not looking at the cache. -/
def computeMu (e : Element K) (x : K) : Outcome (Mu K) := do
  let parts ← partialsOrZero e x
  let b ← bracket e.muEnergy x
  let t := e.mu.getD { coherent := [], compton := [], pair := [], photoelectric := [], total := [] }
  let coh ← processValue b x t.coherent
  let com ← processValue b x t.compton
  let pai ← processValue b x t.pair
  let photo := at0 parts "K".toList + at0 parts "L1".toList + at0 parts "L2".toList + at0 parts "L3".toList
    + (at0 parts "M1".toList + at0 parts "M2".toList + at0 parts "M3".toList + at0 parts "M4".toList
      + at0 parts "M5".toList + at0 parts allOther)
  return { energy := x, partials := parts, coherent := coh, compton := com, pair := pai,
           photoelectric := photo, total := photo + coh + com + pai }

/-- fisx_element.cpp:327-464, `getMassAttenuationCoefficients(energy)`. -/
def getMu (e : Element K) (x : K) : Outcome (Mu K) :=
  if e.muEnergy.length < 1 then .throw .runtimeError
  else if e.cacheOn then
    match e.muCache.find? x with
    | some m => .ok m
    | none => computeMu e x
  else computeMu e x

omit [Trans K] in
/-- fisx_element.cpp:661-677: zero below the binding energy, shift the upper copy of a repeated energy. `i` is the
current index, the lists are the whole vectors. -/
def shiftLoop (binding : K) (E V : List K) (i fuel : Nat) : List K × List K :=
  match fuel with
  | 0 => (E, V)
  | fuel + 1 =>
    if E.getD i 0 < binding then shiftLoop binding E (V.set i 0) (i + 1) fuel
    else if E.getD i 0 = E.getD (i - 1) 0 then
      shiftLoop binding (E.set i (E.getD i 0 + 1 / 1000000)) (V.set (i - 1) (V.getD i 0)) (i + 1) fuel
    else shiftLoop binding E V (i + 1) fuel

omit [Trans K] in
/-- fisx_element.cpp:638-650: ascending starting from 0. -/
def ascendingFrom (last : K) (l : List K) : Bool :=
  match l with
  | [] => true
  | a :: r => if a < last then false else ascendingFrom a r

omit [Trans K] in
/-- fisx_element.cpp:617-680, `setPartialPhotoelectricMassAttenuationCoefficients`. Reading `bindingEnergy[shell]`
(L663) creates the entry when it is missing. -/
def setPartial (e : Element K) (shell : Str) (energy values : List K) : Outcome Unit × Element K :=
  if e.partialE.mem shell = false then (.throw .invalidArgument, e)
  else if energy.length ≠ values.length then (.throw .invalidArgument, e)
  else if ascendingFrom 0 energy = false then (.throw .invalidArgument, e)
  else
    let e := e.clearCache
    if shell ≠ allOther then
      let bind := if energy.length > 1 ∧ e.binding.mem shell = false then e.binding.insert shell 0 else e.binding
      let r := shiftLoop (at0 bind shell) energy values 1 (energy.length - 1)
      (.ok (), { e with binding := bind,
                        partialE := e.partialE.insert shell r.1, partialV := e.partialV.insert shell r.2 })
    else
      (.ok (), { e with partialE := e.partialE.insert shell energy, partialV := e.partialV.insert shell values })

omit [Trans K] in
/-- fisx_element.cpp:887-906, `getExcitedShells`. -/
def getExcitedShells (e : Element K) (x : K) : List Str :=
  (e.binding.filter (fun b => decide (b.2 > 0 ∧ x > b.2))).map Prod.fst

/-- fisx_element.cpp:939-964, `getInitialPhotoelectricVacancyDistribution(energy)`. -/
def getInitialVacancies (e : Element K) (x : K) : Outcome (SMap Str K) := do
  let m ← getMu e x
  return SMap.ofList (photoShells.map (fun s =>
    (s, if m.photoelectric > 0 then at0 m.partials s / m.photoelectric else 0)))

omit [Trans K] in
/-- The checks of fisx_element.cpp:971-984, 990-1001, 1019-1030, 1037-1048 before a transition setter. -/
def checkSubshell (e : Element K) (sub : Str) : Outcome (Shell K) :=
  match e.binding.find? sub with
  | none => .throw .invalidArgument
  | some b =>
    if b ≤ 0 then .throw .invalidArgument
    else match e.shells.find? sub with
      | none => .throw .invalidArgument
      | some s => .ok s

omit [Trans K] in
/-- fisx_element.cpp:967-986, vector overload: the caches are not cleared. -/
def setRadiative (e : Element K) (sub : Str) (labels : List Str) (values : List K) : Outcome Unit × Element K :=
  match checkSubshell e sub with
  | .ok s =>
    let r := s.setRadiative labels values
    (r.1, { e with shells := e.shells.insert sub r.2 })
  | .throw x => (.throw x, e)
  | .ub u => (.ub u, e)
  | .diverge => (.diverge, e)

omit [Trans K] in
/-- fisx_element.cpp:988-1004, map overload: clears the calculation cache (not the cascade cache) on success. -/
def setRadiativeMap (e : Element K) (sub : Str) (values : SMap Str K) : Outcome Unit × Element K :=
  match checkSubshell e sub with
  | .ok s =>
    let r := s.setRadiativeMap values
    let e' := { e with shells := e.shells.insert sub r.2 }
    match r.1 with
    | .ok () => (.ok (), e'.clearCache)
    | o => (o, e')
  | .throw x => (.throw x, e)
  | .ub u => (.ub u, e)
  | .diverge => (.diverge, e)

omit [Trans K] in
/-- fisx_element.cpp:1017-1033, vector overload. -/
def setNonradiative (e : Element K) (sub : Str) (labels : List Str) (values : List K) :
    Outcome Unit × Element K :=
  match checkSubshell e sub with
  | .ok s =>
    let r := s.setNonradiative labels values
    let e' := { e with shells := e.shells.insert sub r.2 }
    match r.1 with
    | .ok () => (.ok (), e'.clearCache)
    | o => (o, e')
  | .throw x => (.throw x, e)
  | .ub u => (.ub u, e)
  | .diverge => (.diverge, e)

omit [Trans K] in
/-- fisx_element.cpp:1035-1051, map overload. -/
def setNonradiativeMap (e : Element K) (sub : Str) (values : SMap Str K) : Outcome Unit × Element K :=
  e.setNonradiative sub (values.map Prod.fst) (values.map Prod.snd)

omit [Trans K] in
/-- fisx_element.cpp:1069-1080, `setShellConstants`. -/
def setShellConstants (e : Element K) (sub : Str) (constants : SMap Str K) : Outcome Unit × Element K :=
  match e.shells.find? sub with
  | none => (.throw .invalidArgument, e)
  | some s =>
    let r := s.setShellConstants constants
    let e' := { e with shells := e.shells.insert sub r.2 }
    match r.1 with
    | .ok () => (.ok (), { e' with cascadeCache := [] }.clearCache)
    | o => (o, e')

omit [Trans K] in
/-- fisx_element.cpp:1171-1188: the two shells of a transition label. -/
def splitTransition (t : Str) : Option (Str × Str) :=
  if t.length = 4 then some (t.take 2, t.drop 2)
  else if t.length = 3 then some (t.take 1, t.drop 1)
  else none

omit [Trans K] in
/-- fisx_element.cpp:1202-1234 and 1406-1440: binding energy of the shell filling the vacancy, 3 eV when unset. -/
def outerEnergy (e : Element K) (from_ : Str) : Outcome K :=
  let e1 := at0 e.binding from_
  if e1 ≤ 0 then (if e1 < 0 then .throw .runtimeError else .ok (3 / 1000)) else .ok e1

omit [Trans K] in
/-- fisx_element.cpp:1190-1200 and 1393-1404: binding energy of the shell with the vacancy. -/
def innerEnergy (e : Element K) (to_ : Str) : Outcome K :=
  match e.binding.find? to_ with
  | none => .throw .domainError
  | some e0 => if e0 ≤ 0 then .throw .domainError else .ok e0

omit [Trans K] in
/-- fisx_element.cpp:1164-1236, `getTransitionEnergy`. -/
def getTransitionEnergy (e : Element K) (t : Str) : Outcome K :=
  match splitTransition t with
  | none => .throw .domainError
  | some (to_, from_) => do
    let e0 ← innerEnergy e to_
    let e1 ← outerEnergy e from_
    return e0 - e1

omit [Trans K] in
/-- fisx_element.cpp:1152-1159: the lines of one excited shell. -/
def emittedOfShell (e : Element K) (s : Shell K) (ratios : List (Str × K)) (acc : SMap Str K) :
    Outcome (SMap Str K) :=
  match ratios with
  | [] => .ok acc
  | (t, _) :: rest => do
    let omega ← s.getFluorescenceYield
    if omega > 0 then do
      let en ← getTransitionEnergy e t
      emittedOfShell e s rest (acc.insert t en)
    else emittedOfShell e s rest acc

omit [Trans K] in
/-- fisx_element.cpp:1130-1160, the loop over the shells: it ends at the first undefined shell. -/
def emittedLoop (e : Element K) (x : K) (ks : List Str) (acc : SMap Str K) : Outcome (SMap Str K) :=
  match ks with
  | [] => .ok acc
  | k :: rest =>
    match e.shells.find? k with
    | none => .ok acc
    | some s =>
      match e.binding.find? k with
      | none => .throw .runtimeError
      | some b =>
        if x ≤ b then emittedLoop e x rest acc
        else do
          let acc ← emittedOfShell e s s.fluorescence acc
          emittedLoop e x rest acc

omit [Trans K] in
/-- fisx_element.cpp:1119-1162, `getEmittedXRayLines`. -/
def getEmittedXRayLines (e : Element K) (x : K) : Outcome (SMap Str K) := emittedLoop e x keys []

/-! ### Cascade -/

omit [Trans K] in
/-- fisx_element.cpp:1277-1286: total number of vacancies transferred directly from one shell to another. -/
def transfer (shells : SMap Str (Shell K)) (k j : Str) : Outcome K :=
  match shells.find? k with
  | none => .ub .derefEnd
  | some s => do
    let t ← s.getDirectVacancyTransferRatios j
    return t.sum

omit [Trans K] in
/-- fisx_element.cpp:1278-1288: a number `v` of vacancies in shell `k` is propagated to the shells `ks`. -/
def addTransfers (shells : SMap Str (Shell K)) (k : Str) (v : K) (ks : List Str) (vs : List K) :
    Outcome (List K) :=
  match ks, vs with
  | j :: ks, w :: vs => do
    let t ← transfer shells k j
    let r ← addTransfers shells k v ks vs
    return (w + t * v) :: r
  | _, _ => .ok []

omit [Trans K] in
/-- fisx_element.cpp:1275-1288: only shells with a positive number of vacancies are propagated. -/
def propagate (shells : SMap Str (Shell K)) (k : Str) (v : K) (ks : List Str) (vs : List K) :
    Outcome (List K) :=
  if v > 0 then addTransfers shells k v ks vs else .ok vs

omit [Trans K] in
/-- fisx_element.cpp:1271-1290: from the innermost shell outwards. The value of a shell is final when the loop
reaches it, because only outer shells are modified. -/
def cascadeLoop (shells : SMap Str (Shell K)) (ks : List Str) (vs : List K) : Outcome (List K) :=
  match ks, vs with
  | k :: ks, v :: vs => do
    let vs' ← propagate shells k v ks vs
    let r ← cascadeLoop shells ks vs'
    return v :: r
  | _, _ => .ok []

omit [Trans K] in
/-- fisx_element.cpp:1256-1268, 1360-1372: the complete initial distribution; as many shells as there are shell
instances (never more than nine, the constructor of Shell accepting only the nine names). -/
def initialVector (e : Element K) (d : SMap Str K) : List K := (keys.take e.shells.length).map (at0 d)

omit [Trans K] in
/-- fisx_element.cpp:1238-1292, `getCascadeModifiedVacancyDistribution`. -/
def getCascade (e : Element K) (d : SMap Str K) : Outcome (SMap Str K) := do
  let r ← cascadeLoop e.shells (keys.take e.shells.length) (initialVector e d)
  return (keys.take e.shells.length).zip r

omit [Trans K] in
/-- fisx_element.cpp:1405-1441: energy of a line of shell `k`; `substr(size - 2, 2)` throws `out_of_range` for labels
of fewer than two characters (the label "K" of a K shell). -/
def lineEnergy (e : Element K) (k t : Str) : Outcome K := do
  let e0 ← innerEnergy e k
  if t.length < 2 then .throw .outOfRange
  else do
    let e1 ← outerEnergy e (t.drop (t.length - 2))
    return e0 - e1

omit [Trans K] in
/-- fisx_element.cpp:1383-1390: rate of a line. -/
def lineRate (useYield : Bool) (s : Shell K) (r v : K) : Outcome K :=
  if useYield then (do let w ← s.getFluorescenceYield; return r * v * w) else .ok (r * v)

omit [Trans K] in
/-- fisx_element.cpp:1383-1443: the lines of one shell holding `v` vacancies. -/
def linesOfShell (e : Element K) (useYield : Bool) (k : Str) (s : Shell K) (v : K) (ratios : List (Str × K))
    (acc : SMap Str (Line K)) : Outcome (SMap Str (Line K)) :=
  match ratios with
  | [] => .ok acc
  | (t, r) :: rest => do
    let rate ← lineRate useYield s r v
    if rate > 0 then do
      let en ← lineEnergy e k t
      linesOfShell e useYield k s v rest (acc.insert t { energy := en, rate := rate })
    else linesOfShell e useYield k s v rest acc

omit [Trans K] in
/-- fisx_element.cpp:1378-1444. -/
def linesLoop (e : Element K) (useYield : Bool) (dist : List (Str × K)) (acc : SMap Str (Line K)) :
    Outcome (SMap Str (Line K)) :=
  match dist with
  | [] => .ok acc
  | (k, v) :: rest =>
    match e.shells.find? k with
    | none => .ub .derefEnd
    | some s => do
      let acc ← linesOfShell e useYield k s v s.fluorescence acc
      linesLoop e useYield rest acc

omit [Trans K] in
/-- fisx_element.cpp:1337-1351: add `w` times the cached lines of one shell. -/
def addCached (w : K) (lines : List (Str × Line K)) (acc : SMap Str (Line K)) : SMap Str (Line K) :=
  match lines with
  | [] => acc
  | (t, l) :: rest =>
    let acc := match acc.find? t with
      | none => acc.insert t { l with rate := l.rate * w }
      | some o => acc.insert t { o with rate := o.rate + l.rate * w }
    addCached w rest acc

omit [Trans K] in
/-- fisx_element.cpp:1320-1352: emission from the cascade cache. -/
def cachedLoop (cache : SMap Str (SMap Str (Line K))) (d : List (Str × K)) (acc : SMap Str (Line K)) :
    Outcome (SMap Str (Line K)) :=
  match d with
  | [] => .ok acc
  | (k, v) :: rest =>
    if v ≤ 0 ∨ k = allOther then cachedLoop cache rest acc
    else match cache.find? k with
      | none => .throw .runtimeError
      | some lines => cachedLoop cache rest (addCached v lines acc)

omit [Trans K] in
/-- fisx_element.cpp:1294-1446, `getXRayLinesFromVacancyDistribution`. -/
def getLines (e : Element K) (d : SMap Str K) (cascade useYield : Bool) : Outcome (SMap Str (Line K)) :=
  if cascade then
    if e.cascadeOn ∧ useYield ∧ e.cascadeCache.length > 0 then cachedLoop e.cascadeCache d []
    else do
      let f ← getCascade e d
      linesLoop e useYield f []
  else linesLoop e useYield ((keys.take e.shells.length).zip (initialVector e d)) []

omit [Trans K] in
/-- fisx_element.cpp:1620-1634, the loop of `fillCascadeCache` (with the flag off during the computation; it is
not restored when the computation throws, L1632-1633). -/
def fillCascadeLoop (e : Element K) (subs : List Str) (cache : SMap Str (SMap Str (Line K))) :
    Outcome Unit × SMap Str (SMap Str (Line K)) :=
  match subs with
  | [] => (.ok (), cache)
  | s :: rest =>
    match getLines { e with cascadeOn := false } [(s, 1)] true true with
    | .ok l => fillCascadeLoop e rest (cache.insert s l)
    | .throw x => (.throw x, cache)
    | .ub u => (.ub u, cache)
    | .diverge => (.diverge, cache)

omit [Trans K] in
/-- fisx_element.cpp:1614-1636, `fillCascadeCache`. -/
def fillCascadeCache (e : Element K) : Outcome Unit × Element K :=
  let r := fillCascadeLoop e e.shells.keys []
  match r.1 with
  | .ok () => (.ok (), { e with cascadeCache := r.2 })
  | o => (o, { e with cascadeCache := r.2, cascadeOn := false })

omit [Trans K] in
/-- fisx_element.cpp:1598-1612, `setCascadeCacheEnabled`. -/
def setCascadeCacheEnabled (e : Element K) (flag : Bool) : Outcome Unit × Element K :=
  if flag = false then (.ok (), { e with cascadeOn := false })
  else if e.cascadeCache.length < 1 then
    let r := e.fillCascadeCache
    match r.1 with
    | .ok () => (.ok (), { r.2 with cascadeOn := true })
    | o => (o, r.2)
  else (.ok (), { e with cascadeOn := true })

omit [Trans K] in
/-- fisx_element.cpp:1638-1641. -/
def emptyCascadeCache (e : Element K) : Element K := { e with cascadeCache := [] }

/-! ### Excitation factors and calculation cache -/

/-- fisx_element.cpp:1554-1562: the factors, not looking at the factor cache. -/
def computeFactors (e : Element K) (x w : K) : Outcome (SMap Str (Factor K)) := do
  let vac ← getInitialVacancies e x
  let lines ← getLines e vac true true
  if lines = [] then return []
  else do
    -- L1560: evaluated for each line, always with the same result
    let m ← getMu e x
    return lines.map (fun l => (l.1,
      { energy := l.2.energy, factor := l.2.rate * w, rate := l.2.rate * w * m.photoelectric }))

/-- fisx_element.cpp:1526-1563, `getPhotoelectricExcitationFactors(energy, weight)`. -/
def getFactors (e : Element K) (x w : K) : Outcome (SMap Str (Factor K)) :=
  if e.cacheOn then
    match e.excCache.find? x with
    | some c => .ok (c.map (fun l => (l.1, { l.2 with factor := l.2.factor * w, rate := l.2.rate * w })))
    | none => computeFactors e x w
  else computeFactors e x w

omit [Trans K] in
/-- fisx_element.cpp:1648-1654. -/
def setCacheEnabled (e : Element K) (flag : Bool) : Element K := { e with cacheOn := flag }

/-- fisx_element.cpp:1695-1699, the loop of `fillCache` (evaluation order of C++17: an assignment whose right side
throws does not create the key). -/
def fillLoop (e : Element K) (energies : List K) : Outcome Unit × Element K :=
  match energies with
  | [] => (.ok (), e)
  | x :: rest =>
    match getMu e x with
    | .ok m =>
      let e := { e with muCache := e.muCache.insert x m }
      match getFactors e x 1 with
      | .ok f => fillLoop { e with excCache := e.excCache.insert x f } rest
      | .throw t => (.throw t, e)
      | .ub u => (.ub u, e)
      | .diverge => (.diverge, e)
    | .throw t => (.throw t, e)
    | .ub u => (.ub u, e)
    | .diverge => (.diverge, e)

/-- fisx_element.cpp:1674-1707, `fillCache`. -/
def fillCache (e : Element K) (energies : List K) : Outcome Unit × Element K :=
  let r := fillLoop { e.clearCache with cacheOn := false } (energies.take cacheMaximumSize)
  (r.1, { r.2 with cacheOn := e.cacheOn })

/-- fisx_element.cpp:1721-1734, the loop of `updateCache`. -/
def updateLoop (e : Element K) (energies : List K) : Outcome Unit × Element K :=
  match energies with
  | [] => (.ok (), e)
  | x :: rest =>
    if e.muCache.length < cacheMaximumSize then
      let r1 : Outcome Unit × Element K :=
        if e.muCache.mem x then (.ok (), e)
        else match getMu e x with
          | .ok m => (.ok (), { e with muCache := e.muCache.insert x m })
          | .throw t => (.throw t, e)
          | .ub u => (.ub u, e)
          | .diverge => (.diverge, e)
      match r1.1 with
      | .ok () =>
        let e := r1.2
        if e.excCache.mem x then updateLoop e rest
        else match getFactors e x 1 with
          | .ok f => updateLoop { e with excCache := e.excCache.insert x f } rest
          | .throw t => (.throw t, e)
          | .ub u => (.ub u, e)
          | .diverge => (.diverge, e)
      | o => (o, r1.2)
    else updateLoop e rest

/-- fisx_element.cpp:1709-1750, `updateCache`. -/
def updateCache (e : Element K) (energies : List K) : Outcome Unit × Element K :=
  let r := updateLoop { e with cacheOn := false } energies
  (r.1, { r.2 with cacheOn := e.cacheOn })

/-- The mutating API. -/
inductive Op (K : Type)
  | setAtomicNumber (z : Int)
  | setBindingEnergies (b : SMap Str K)
  | setMass (energies photo coherent compton pair : List K)
  | setPartial (shell : Str) (energies values : List K)
  | setRadiative (sub : Str) (labels : List Str) (values : List K)
  | setRadiativeMap (sub : Str) (values : SMap Str K)
  | setNonradiative (sub : Str) (labels : List Str) (values : List K)
  | setNonradiativeMap (sub : Str) (values : SMap Str K)
  | setShellConstants (sub : Str) (constants : SMap Str K)
  | setCascadeCacheEnabled (flag : Bool)
  | fillCascadeCache
  | emptyCascadeCache
  | setCacheEnabled (flag : Bool)
  | clearCache
  | fillCache (energies : List K)
  | updateCache (energies : List K)

/-- One call. -/
def step (e : Element K) : Op K → Outcome Unit × Element K
  | .setAtomicNumber z => e.setAtomicNumber z
  | .setBindingEnergies b => e.setBindingEnergies b
  | .setMass en ph co cm pa => e.setMassAttenuationCoefficients en ph co cm pa
  | .setPartial s en v => e.setPartial s en v
  | .setRadiative s l v => e.setRadiative s l v
  | .setRadiativeMap s m => e.setRadiativeMap s m
  | .setNonradiative s l v => e.setNonradiative s l v
  | .setNonradiativeMap s m => e.setNonradiativeMap s m
  | .setShellConstants s c => e.setShellConstants s c
  | .setCascadeCacheEnabled f => e.setCascadeCacheEnabled f
  | .fillCascadeCache => e.fillCascadeCache
  | .emptyCascadeCache => (.ok (), e.emptyCascadeCache)
  | .setCacheEnabled f => (.ok (), e.setCacheEnabled f)
  | .clearCache => (.ok (), e.clearCache)
  | .fillCache en => e.fillCache en
  | .updateCache en => e.updateCache en

/-- A history (exceptions are caught by the caller). -/
def run (e : Element K) (ops : List (Op K)) : Element K := ops.foldl (fun e op => (e.step op).2) e

end Element
end Fisx
