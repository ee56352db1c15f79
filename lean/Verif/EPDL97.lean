import Verif.Element

/-!
# Model of `fisx::EPDL97` (/repo/src/fisx_epdl97.cpp, /repo/src/fisx_epdl97.h)

The static variable `lastI0` of `getInterpolationIndices` (fisx_epdl97.cpp:780), shared by all the instances, is an
explicit argument and result. The files are read by SimpleSpecfile: here the loaders take the labels and the rows
of the scans (see the model of SimpleSpecfile).
-/

namespace Fisx

/-- One scan of a file: labels and rows. -/
structure Scan (K : Type) where
  labels : List Str
  rows : List (List K)
deriving DecidableEq, Repr

/-- fisx_epdl97.h:70-94, the data members (file and directory names are not modelled). -/
structure EPDL97 (K : Type) where
  initialized : Bool
  binding : List (SMap Str K)
  labelIndex : SMap Str Int
  values : List (List (List K))
  muEnergy : List (List K)
deriving DecidableEq, Repr

namespace EPDL97

variable {K : Type} [Field K] [LinearOrder K]

/-- fisx_epdl97.cpp:38-48. -/
def new : EPDL97 K := { initialized := false, binding := [], labelIndex := [], values := [], muEnergy := [] }

/-! ### Interpolation indices -/

/-- fisx_epdl97.cpp:811-835, the bisection. The result is (iMin, iMax) and the last value of `lastI0`. The number of
iterations is bounded by the fuel; it is proved never to be exhausted. -/
def bisect (vec : List K) (x : K) (fuel : Nat) (iMin iMax last : Nat) : Outcome ((Nat × Nat) × Nat) :=
  match fuel with
  | 0 => .diverge
  | fuel + 1 =>
    let distance := iMax - iMin
    if distance > 1 then do
      let step := if distance > 2 then distance / 2 else distance - 1
      let mid := iMin + step
      let v ← vget vec mid
      if x > v then bisect vec x fuel mid iMax mid else bisect vec x fuel iMin mid mid
    else .ok ((iMin, iMax), last)

/-- fisx_epdl97.cpp:785-790: the start index, not beyond the end of the vector (for an empty one it becomes -1). -/
def startIndex (vec : List K) (last : Nat) : Outcome Nat :=
  if last ≥ vec.length then (if vec.length = 0 then .ub .outOfBounds else .ok (vec.length - 1)) else .ok last

/-- fisx_epdl97.cpp:800-808: the second limit and `lastI0` when the value is not below the start. -/
def upperLimit (vec : List K) (x : K) (start : Nat) : Outcome (Nat × Nat) :=
  if vec.length - start > 21 then do
    let w ← vget vec (start + 20)
    if x < w then return (start + 20, start + 20) else return (vec.length - 1, start + 20)
  else .ok (vec.length - 1, start)

/-- fisx_epdl97.cpp:778-840, `getInterpolationIndices`; `last` is the value of the static variable. -/
def interpolationIndices (vec : List K) (x : K) (last : Nat) : Outcome ((Nat × Nat) × Nat) := do
  let start ← startIndex vec last
  let v ← vget vec start
  if x < v then bisect vec x (vec.length + 1) 0 start start
  else do
    let (iMax, last) ← upperLimit vec x start
    bisect vec x (vec.length + 1) start iMax last

/-! ### Coefficients -/

/-- `(*pVector)[i][idx]`. -/
def cell (rows : List (List K)) (i : Nat) (idx : Int) : Outcome K := do
  let r ← vget rows i
  vgetI r idx

/-- fisx_epdl97.cpp:470-474, 558-562: the first row from `i` on (given by the rows left) with a positive value. -/
def firstPositive (rows : List (List K)) (idx : Int) (i : Nat) : Outcome Nat :=
  match rows with
  | [] => .ub .outOfBounds
  | r :: rest => do
    let y ← vgetI r idx
    if y ≤ 0 then firstPositive rest idx (i + 1) else return i

variable [Trans K]

/-- fisx_epdl97.cpp:470-483, 558-571: extrapolation from the first two rows with data. -/
def extrapolate (E : List K) (rows : List (List K)) (idx : Int) (i1 : Nat) (x : K) : Outcome K := do
  let w ← firstPositive (rows.drop i1) idx i1
  let y0 ← cell rows w idx
  let y1 ← cell rows (w + 1) idx
  let x0 ← vget E w
  let x1 ← vget E (w + 1)
  return Element.logLog x x0 x1 y0 y1

/-- The two rows used for an energy (fisx_epdl97.cpp:396-420): indices and energies. -/
structure Rows (K : Type) where
  i1 : Nat
  i2 : Nat
  x0 : K
  x1 : K
deriving DecidableEq, Repr

omit [Field K] [Trans K] in
/-- fisx_epdl97.cpp:396-420: at a repeated energy the two copies are taken. -/
def adjustRows (E : List K) (x : K) (i : Nat × Nat) : Outcome (Rows K) := do
  let x0 ← vget E i.1
  let x1 ← vget E i.2
  if x = x1 ∧ i.2 + 1 < E.length then do
    let nxt ← vget E (i.2 + 1)
    if nxt = x1 then return { i1 := i.2, i2 := i.2 + 1, x0 := x1, x1 := nxt }
    else return { i1 := i.1, i2 := i.2, x0 := x0, x1 := x1 }
  else return { i1 := i.1, i2 := i.2, x0 := x0, x1 := x1 }

omit [Trans K] in
/-- fisx_epdl97.cpp:422: no interpolation. -/
def Rows.same (r : Rows K) : Prop := r.i1 = r.i2 ∨ r.x1 - r.x0 < 5 / 10000000000

instance (r : Rows K) : Decidable r.same := by unfold Rows.same; infer_instance

/-- fisx_epdl97.cpp:436-439 and 509-529: coherent, compton and "all other". -/
def plainValue (r : Rows K) (rows : List (List K)) (idx : Int) (x : K) : Outcome K :=
  if r.same then cell rows r.i2 idx
  else do
    let y0 ← cell rows r.i1 idx
    let y1 ← cell rows r.i2 idx
    return Element.logLogGuarded x r.x0 r.x1 y0 y1

/-- fisx_epdl97.cpp:454-486 and 542-573: a shell excited at this energy. -/
def excitedValue (E : List K) (r : Rows K) (rows : List (List K)) (idx : Int) (x : K) : Outcome K :=
  if r.same then do
    let y0 ← cell rows r.i1 idx
    if y0 > 0 then return y0
    else do
      let y1 ← cell rows r.i2 idx
      if r.x1 - r.x0 < 5 / 10000000000 ∧ y1 > 0 then return y1
      else extrapolate E rows idx r.i1 x
  else do
    let y0 ← cell rows r.i1 idx
    if y0 > 0 then do
      let y1 ← cell rows r.i2 idx
      if y1 > 0 then return Element.logLog x r.x0 r.x1 y0 y1 else return 0
    else extrapolate E rows idx r.i1 x

/-- fisx_epdl97.cpp:442-487 and 530-574: a shell. -/
def shellValue (binding : SMap Str K) (E : List K) (r : Rows K) (rows : List (List K)) (key : Str) (idx : Int)
    (x : K) : Outcome K :=
  match binding.find? key with
  | none => .throw .runtimeError
  | some b => if b ≤ x ∧ b > 0 then excitedValue E r rows idx x else .ok 0

/-- The keys not interpolated (fisx_epdl97.cpp:432, 504). -/
def derivedKeys : List Str := ["total".toList, "photoelectric".toList, "energy".toList]

/-- The keys of the processes other than a shell (fisx_epdl97.cpp:436, 509). -/
def plainKeys : List Str := ["coherent".toList, "compton".toList, Element.allOther]

/-- fisx_epdl97.cpp:426-489 and 499-575: the loop over the labels. -/
def labelLoop (binding : SMap Str K) (E : List K) (r : Rows K) (rows : List (List K)) (x : K)
    (labels : List (Str × Int)) (acc : SMap Str K) : Outcome (SMap Str K) :=
  match labels with
  | [] => .ok acc
  | (key, idx) :: rest =>
    if key ∈ derivedKeys then labelLoop binding E r rows x rest acc
    else if key ∈ plainKeys then do
      let v ← plainValue r rows idx x
      labelLoop binding E r rows x rest (acc.insert key v)
    else if key.length < 3 then do
      let v ← shellValue binding E r rows key idx x
      labelLoop binding E r rows x rest (acc.insert key v)
    else labelLoop binding E r rows x rest acc

omit [Trans K] in
/-- fisx_epdl97.cpp:578-580. -/
def photoSum (m : SMap Str K) : K :=
  Element.at0 m "K".toList + Element.at0 m "L1".toList + Element.at0 m "L2".toList + Element.at0 m "L3".toList
    + (Element.at0 m "M1".toList + Element.at0 m "M2".toList + Element.at0 m "M3".toList
      + Element.at0 m "M4".toList + Element.at0 m "M5".toList + Element.at0 m Element.allOther)

omit [LinearOrder K] [Trans K] in
/-- fisx_epdl97.cpp:578-581: reading an absent key with `operator[]` creates it. -/
def touch (m : SMap Str K) (keys : List Str) : SMap Str K :=
  keys.foldl (fun m k => if m.mem k then m else m.insert k 0) m

omit [Trans K] in
/-- fisx_epdl97.cpp:577-582. -/
def finish (m : SMap Str K) : SMap Str K :=
  let m := m.insert "pair".toList 0
  let photo := photoSum m
  let m := (touch m Element.photoShells).insert "photoelectric".toList photo
  let total := photo + Element.at0 m "coherent".toList + Element.at0 m "compton".toList + 0
  (touch m ["coherent".toList, "compton".toList]).insert "total".toList total

/-- fisx_epdl97.cpp:396-582: the coefficients from the rows of the element. -/
def fromTable (binding : SMap Str K) (E : List K) (rows : List (List K)) (labels : SMap Str Int) (x : K)
    (last : Nat) : Outcome (SMap Str K × Nat) := do
  let (i, last) ← interpolationIndices E x last
  let r ← adjustRows E x i
  let m ← labelLoop binding E r rows x labels [("energy".toList, x)]
  return (finish m, last)

omit [Field K] [LinearOrder K] [Trans K] in
/-- fisx_epdl97.cpp:387-393, 631-642: the index of the element, the last one for higher atomic numbers
(-1 for an empty table). -/
def elementIndex (e : EPDL97 K) (z : Int) : Int :=
  if z - 1 > (e.muEnergy.length : Int) - 1 then (e.muEnergy.length : Int) - 1 else z - 1

/-- fisx_epdl97.cpp:365-583, `getMassAttenuationCoefficients(z, energy)`. The binding energies (L446, L534) are read
only when a shell label is reached; a missing element there is undefined behaviour. -/
def getMu (e : EPDL97 K) (z : Int) (x : K) (last : Nat) : Outcome (SMap Str K × Nat) :=
  if e.initialized = false then .throw .runtimeError
  else if z < 1 then .throw .runtimeError
  else do
    let E ← vgetI e.muEnergy (elementIndex e z)
    let rows ← vgetI e.values (elementIndex e z)
    let b ← vgetI e.binding (elementIndex e z)
    fromTable b E rows e.labelIndex x last

/-- fisx_epdl97.cpp:693-738, `getPhotoelectricWeights(z, energy)`: the ten weights (the "mu ..." copies of the
coefficients, L713-717, are not repeated here). -/
def getWeights (e : EPDL97 K) (z : Int) (x : K) (last : Nat) : Outcome (SMap Str K × Nat) := do
  let (m, last) ← getMu e z x last
  let mu := Element.at0 m "photoelectric".toList
  if mu ≤ 1 / 10000000000 then
    return (SMap.ofList (Element.photoShells.map (fun s => (s, (0 : K)))), last)
  else return (SMap.ofList (Element.photoShells.map (fun s => (s, Element.at0 m s / mu))), last)

/-! ### Binding energies -/

omit [Field K] [LinearOrder K] [Trans K] in
/-- fisx_epdl97.cpp:333-345. -/
def setBindingEnergies (e : EPDL97 K) (z : Int) (b : SMap Str K) : Outcome Unit × EPDL97 K :=
  if z < 1 then (.throw .runtimeError, e)
  else if (z - 1).toNat < e.binding.length then (.ok (), { e with binding := e.binding.set (z - 1).toNat b })
  else (.ub .outOfBounds, e)

omit [Field K] [LinearOrder K] [Trans K] in
/-- fisx_epdl97.cpp:347-362. -/
def getBindingEnergies (e : EPDL97 K) (z : Int) : Outcome (SMap Str K) :=
  if z < 1 then .throw .runtimeError
  else if z ≥ (e.binding.length : Int) then vgetI e.binding ((e.binding.length : Int) - 1)
  else vgetI e.binding (z - 1)

/-- fisx_epdl97.cpp:151-176: the shell named by a label of the file; `substr(3, 1)` (L165) throws for labels of
fewer than three characters only, which are handled before. -/
def bindingKey (label : Str) : Str :=
  if label.take 1 = ['K'] then ['K']
  else if label.length < 3 then label.take 2
  else if (label.drop 3).take 1 = ['('] then label.take 3
  else label.take 2

omit [Field K] [LinearOrder K] [Trans K] in
/-- fisx_epdl97.cpp:149-178: one row, from the second label on. -/
def bindingRow (labels : List Str) (row : List K) (acc : SMap Str K) : Outcome (SMap Str K) :=
  match labels, row with
  | [], _ => .ok acc
  | _ :: _, [] => .ub .outOfBounds
  | l :: ls, v :: vs => bindingRow ls vs (acc.insert (bindingKey l) v)

omit [Field K] [LinearOrder K] [Trans K] in
/-- fisx_epdl97.cpp:145-179: the table; `resize` keeps the entries present before the call. -/
def bindingTable (labels : List Str) (rows : List (List K)) (old : List (SMap Str K)) : Outcome (List (SMap Str K)) :=
  match rows with
  | [] => .ok []
  | r :: rest => do
    let m ← bindingRow (labels.drop 1) (r.drop 1) (old.headD [])
    let t ← bindingTable labels rest (old.drop 1)
    return m :: t

omit [Field K] [LinearOrder K] [Trans K] in
/-- fisx_epdl97.cpp:112-183, `loadBindingEnergies`, given the scans of the file (`none`: it cannot be read). -/
def loadBindingEnergies (e : EPDL97 K) (file : Option (List (Scan K))) : Outcome Unit × EPDL97 K :=
  match file with
  | none => (.throw .ioFailure, e)
  | some [scan] =>
    match scan.rows with
    | [] => (.ub .outOfBounds, e)
    | r :: _ =>
      if r.length ≠ scan.labels.length then (.throw .ioFailure, e)
      else match bindingTable scan.labels scan.rows e.binding with
        | .ok t => (.ok (), { e with binding := t, initialized := true })
        | .throw x => (.throw x, e)
        | .ub u => (.ub u, e)
        | .diverge => (.diverge, e)
  | some _ => (.throw .ioFailure, e)

/-! ### Cross sections -/

/-- fisx_epdl97.cpp:195-196. -/
def interestingLabels : List Str :=
  ["energy", "compton", "coherent", "photoelectric", "total", "K", "L1", "L2", "L3", "M1", "M2", "M3", "M4", "M5",
   "all other"].map String.toList

/-- `tmpString.find(key) != npos`. -/
def contains (s key : Str) : Bool :=
  match s with
  | [] => key.isPrefixOf s
  | _ :: rest => key.isPrefixOf s || contains rest key

/-- fisx_epdl97.cpp:221-225. -/
def searchKey (label : Str) : Str :=
  if Str.upper label = "ALL OTHER".toList then "ALLOTHER".toList else Str.upper label

/-- fisx_epdl97.cpp:229-254: does a label of the file name the wanted quantity? -/
def labelMatches (key tmp : Str) : Bool :=
  contains tmp key &&
    (if key = "COHERENT".toList then !contains tmp "INCOHERENT".toList
     else if key.length < 3 then decide (key = tmp.take key.length) else true)

/-- fisx_epdl97.cpp:226-256: the index of the first matching label, -1 if none. -/
def labelIndexOf (labels : List Str) (want : Str) : Int :=
  match labels.findIdx? (fun l => labelMatches (searchKey want) (Str.upper l)) with
  | some n => n
  | none => -1

/-- fisx_epdl97.cpp:218-261: the outcome and the label map at its end. -/
def findLabels (labels : List Str) (wanted : List Str) (acc : SMap Str Int) : Outcome Unit × SMap Str Int :=
  match wanted with
  | [] => (.ok (), acc)
  | w :: ws =>
    let acc := acc.insert w (labelIndexOf labels w)
    if labelIndexOf labels w = -1 then (.throw .ioFailure, acc) else findLabels labels ws acc

/-- `v[i] = a` on a vector. -/
def vsetI {α : Type} (v : List α) (i : Int) (a : α) : Outcome (List α) :=
  if i < 0 ∨ (v.length : Int) ≤ i then .ub .outOfBounds else .ok (v.set i.toNat a)

/-- `muLabelToIndex[key]` (the keys are all present at this point). -/
def idxOf (L : SMap Str Int) (key : String) : Int := (L.find? key.toList).getD 0

omit [Trans K] in
/-- fisx_epdl97.cpp:298-316: the remaining shells. -/
def recalcOther (L : SMap Str Int) (i : Nat) (row : List K) : Outcome (List K) := do
  let o ← vgetI row (idxOf L "all other")
  if o > 0 ∧ i > 17 then do
    let p ← vgetI row (idxOf L "photoelectric")
    let k ← vgetI row (idxOf L "K")
    let l1 ← vgetI row (idxOf L "L1")
    let l2 ← vgetI row (idxOf L "L2")
    let l3 ← vgetI row (idxOf L "L3")
    let m1 ← vgetI row (idxOf L "M1")
    let m2 ← vgetI row (idxOf L "M2")
    let m3 ← vgetI row (idxOf L "M3")
    let m4 ← vgetI row (idxOf L "M4")
    let m5 ← vgetI row (idxOf L "M5")
    vsetI row (idxOf L "all other") (p - k - l1 - l2 - l3 - m1 - m2 - m3 - m4 - m5)
  else vsetI row (idxOf L "all other") 0

omit [Trans K] in
/-- fisx_epdl97.cpp:323-327. -/
def clampOther (L : SMap Str Int) (row : List K) : Outcome (List K) := do
  let o ← vgetI row (idxOf L "all other")
  if o < 0 then vsetI row (idxOf L "all other") 0 else return row

omit [Trans K] in
/-- fisx_epdl97.cpp:296-322. -/
def recalcPhoto (L : SMap Str Int) (i : Nat) (row : List K) : Outcome (List K) := do
  let p ← vgetI row (idxOf L "photoelectric")
  if p > 0 then recalcOther L i row else vsetI row (idxOf L "photoelectric") 0

omit [Trans K] in
/-- fisx_epdl97.cpp:289-327: one row of the scan `i`: its energy and the row with the recalculated columns. -/
def recalcRow (L : SMap Str Int) (i : Nat) (row : List K) : Outcome (K × List K) := do
  let e ← vgetI row (idxOf L "energy")
  let t ← vgetI row (idxOf L "total")
  let c ← vgetI row (idxOf L "compton")
  let h ← vgetI row (idxOf L "coherent")
  let row ← vsetI row (idxOf L "photoelectric") (t - c - h)
  let row ← recalcPhoto L i row
  let row ← clampOther L row
  return (e, row)

omit [Trans K] in
/-- fisx_epdl97.cpp:287-328. -/
def recalcRows (L : SMap Str Int) (i : Nat) (rows : List (List K)) : Outcome (List (K × List K)) :=
  match rows with
  | [] => .ok []
  | r :: rest => do
    let a ← recalcRow L i r
    let t ← recalcRows L i rest
    return a :: t

omit [Trans K] in
/-- fisx_epdl97.cpp:267-329: the scans from number `i` on. The tables not reached keep what `resize` left. -/
def readScans (labels : List Str) (L : SMap Str Int) (scans : List (Scan K)) (i : Nat)
    (values : List (List (List K))) (energies : List (List K)) :
    Outcome Unit × List (List (List K)) × List (List K) :=
  match scans with
  | [] => (.ok (), values, energies)
  | s :: rest =>
    if s.labels ≠ labels then (.throw .lengthError, values, energies)
    else match recalcRows L i s.rows with
      | .ok t => readScans labels L rest (i + 1) (values.set i (t.map Prod.snd)) (energies.set i (t.map Prod.fst))
      | .throw x => (.throw x, values, energies)
      | .ub u => (.ub u, values, energies)
      | .diverge => (.diverge, values, energies)

/-- `resize(n)`: truncate or append default elements. -/
def resize {α : Type} (l : List (List α)) (n : Nat) : List (List α) := (l ++ List.replicate n []).take n

omit [Trans K] in
/-- fisx_epdl97.cpp:185-331, `loadCrossSections`, given the scans of the file (`none`: it cannot be read). Failures
of the reader in a later scan are not modelled. -/
def loadCrossSections (e : EPDL97 K) (file : Option (List (Scan K))) : Outcome Unit × EPDL97 K :=
  match file with
  | none => (.throw .ioFailure, e)
  | some scans =>
    if scans.length < 99 then (.throw .ioFailure, e)
    else
      let labels := (scans.head?.map Scan.labels).getD []
      if labels.length < 15 then (.throw .ioFailure, e)
      else
        let f := findLabels labels interestingLabels e.labelIndex
        let e := { e with labelIndex := f.2 }
        match f.1 with
        | .ok () =>
          let r := readScans labels f.2 scans 0 (resize e.values scans.length) (resize e.muEnergy scans.length)
          (r.1, { e with values := r.2.1, muEnergy := r.2.2 })
        | .throw x => (.throw x, e)
        | .ub u => (.ub u, e)
        | .diverge => (.diverge, e)

omit [Trans K] in
/-- fisx_epdl97.cpp:61-109, `setDataDirectory` with the two files of the directory. -/
def setDataDirectory (_e : EPDL97 K) (bindingFile crossFile : Option (List (Scan K))) : Outcome Unit × EPDL97 K :=
  let r := loadBindingEnergies new bindingFile
  match r.1 with
  | .ok () =>
    let c := loadCrossSections r.2 crossFile
    match c.1 with
    | .ok () => (.ok (), { c.2 with initialized := true })
    | .throw x => (.throw x, c.2)
    | .ub u => (.ub u, c.2)
    | .diverge => (.diverge, c.2)
  | .throw x => (.throw x, r.2)
  | .ub u => (.ub u, r.2)
  | .diverge => (.diverge, r.2)

/-! ### The whole table of an element -/

omit [Field K] [LinearOrder K] [Trans K] in
/-- fisx_epdl97.cpp:659-661: one column. -/
def column (rows : List (List K)) (n : Nat) (idx : Int) : Outcome (List K) :=
  match n, rows with
  | 0, _ => .ok []
  | _ + 1, [] => .ub .outOfBounds
  | n + 1, r :: rest => do
    let y ← vgetI r idx
    let t ← column rest n idx
    return y :: t

/-- The accumulators of fisx_epdl97.cpp:651-677. -/
structure TableAcc (K : Type) where
  result : SMap Str (List K)
  photo : List K
  rest : List K
deriving DecidableEq, Repr

omit [LinearOrder K] [Trans K] in
/-- fisx_epdl97.cpp:651-677: the loop over the labels. -/
def tableLoop (rows : List (List K)) (n : Nat) (labels : List (Str × Int)) (acc : TableAcc K) :
    Outcome (TableAcc K) :=
  match labels with
  | [] => .ok acc
  | (key, idx) :: more =>
    if key = "total".toList ∨ key = "photoelectric".toList then tableLoop rows n more acc
    else do
      let c ← column rows n idx
      tableLoop rows n more
        { result := acc.result.insert key c
          photo := if key ∈ Element.photoShells then List.zipWith (· + ·) acc.photo c else acc.photo
          rest := if key ∈ ["coherent".toList, "compton".toList, "pair".toList]
            then List.zipWith (· + ·) acc.rest c else acc.rest }

omit [LinearOrder K] [Trans K] in
/-- fisx_epdl97.cpp:614-691, `getMassAttenuationCoefficients(z)`. -/
def getTable (e : EPDL97 K) (z : Int) : Outcome (SMap Str (List K)) :=
  if e.initialized = false then .throw .runtimeError
  else if z < 1 then .throw .runtimeError
  else do
    let rows ← vgetI e.values (elementIndex e z)
    let E ← vgetI e.muEnergy (elementIndex e z)
    let zero := List.replicate E.length (0 : K)
    let a ← tableLoop rows E.length e.labelIndex { result := [], photo := zero, rest := zero }
    let m := if e.labelIndex.mem "pair".toList then a.result else a.result.insert "pair".toList zero
    return (m.insert "photoelectric".toList a.photo).insert "total".toList (List.zipWith (· + ·) a.rest a.photo)

end EPDL97
end Fisx
