import Verif.Base
import Verif.SMap

/-!
# Model of `fisx::TransmissionTable` (/repo/src/fisx_transmissiontable.cpp)
-/

namespace Fisx

/-- fisx_transmissiontable.h:94-97, the data members. -/
structure TransmissionTable (K : Type) where
  name : String
  comment : String
  table : SMap K K
deriving Repr, DecidableEq

namespace TransmissionTable

variable {K : Type} [Field K] [LinearOrder K]

/-- fisx_transmissiontable.cpp:35-49, both constructors (the default one has empty strings). -/
def new (name comment : String) : TransmissionTable K :=
  { name := name, comment := comment, table := [(0, 1)] }

/-- fisx_transmissiontable.cpp:52-55. -/
def setName (t : TransmissionTable K) (n : String) : TransmissionTable K := { t with name := n }

/-- fisx_transmissiontable.cpp:57-60. -/
def setComment (t : TransmissionTable K) (c : String) : TransmissionTable K := { t with comment := c }

/-- fisx_transmissiontable.cpp:70-93 and 148-170, the validation loop (the same in both overloads):
negative energy, energy below the running maximum, negative transmission. -/
def checkRows (rows : List (K × K)) (maxEnergy : K) : Bool :=
  match rows with
  | [] => true
  | (e, tr) :: rest =>
    if e < 0 then false
    else if e < maxEnergy then false
    else if tr < 0 then false
    else checkRows rest e

/-- fisx_transmissiontable.cpp:96-105 and 130-139: a non-empty name (comment) cannot be given twice. -/
def renames (t : TransmissionTable K) (name comment : String) : Bool :=
  (t.name ≠ "" && name ≠ "") || (t.comment ≠ "" && comment ≠ "")

/-- fisx_transmissiontable.cpp:109-116 and 188-195, the assignments after the table is stored. -/
def assign (t : TransmissionTable K) (table : SMap K K) (name comment : String) :
    TransmissionTable K :=
  { name := if name ≠ "" then name else t.name,
    comment := if comment ≠ "" then comment else t.comment,
    table := table }

/-- fisx_transmissiontable.cpp:63-117, `setTransmissionTable(map)`. -/
def setMap (t : TransmissionTable K) (table : SMap K K) (name comment : String) :
    Outcome Unit × TransmissionTable K :=
  if ¬ checkRows table (-1) then (.throw .invalidArgument, t)
  else if t.renames name comment then (.throw .invalidArgument, t)
  else (.ok (), t.assign table name comment)

/-- fisx_transmissiontable.cpp:180, the shift given to a repeated energy. -/
def delta : K := 1 / 1000000

/-- fisx_transmissiontable.cpp:174-187, the filling loop. -/
def fill (rows : List (K × K)) (m : SMap K K) : SMap K K :=
  rows.foldl (fun m r => if m.mem r.1 then m.insert (r.1 + delta) r.2 else m.insert r.1 r.2) m

/-- fisx_transmissiontable.cpp:119-196, `setTransmissionTable(vector, vector)`. -/
def setLists (t : TransmissionTable K) (energy transmission : List K) (name comment : String) :
    Outcome Unit × TransmissionTable K :=
  if t.renames name comment then (.throw .invalidArgument, t)
  else if energy.length ≠ transmission.length then (.throw .invalidArgument, t)
  else if ¬ checkRows (energy.zip transmission) (-1) then (.throw .invalidArgument, t)
  else (.ok (), t.assign (fill (energy.zip transmission) []) name comment)

/-- `std::map::upper_bound` as a position: the number of leading keys not above `e`. -/
def upperBound (m : SMap K K) (e : K) : Nat := (m.takeWhile (fun p => p.1 ≤ e)).length

/-- fisx_transmissiontable.cpp:209-245, `getTransmission`. The positions used are always valid when the
table is not empty, the fall-back values of `getD` are never taken (see `C03_exact`). -/
def getTransmission (t : TransmissionTable K) (e : K) : K :=
  let m := t.table
  if m.length < 1 then 1
  else
    let i2 := upperBound m e
    if i2 = m.length then (m.getD (i2 - 1) (0, 0)).2
    else if e ≤ (m.getD 0 (0, 0)).1 then (m.getD 0 (0, 0)).2
    else
      let p1 := m.getD (i2 - 1) (0, 0)
      let p2 := m.getD i2 (0, 0)
      let factor := (e - p1.1) / (p2.1 - p1.1)
      factor * p2.2 + (1 - factor) * p1.2

/-- fisx_transmissiontable.cpp:247-259, the vector overload. -/
def getTransmissions (t : TransmissionTable K) (es : List K) : List K := es.map t.getTransmission

/-- The mutating API (fisx_transmissiontable.h:61-76). -/
inductive Op (K : Type)
  | setName (n : String)
  | setComment (c : String)
  | setMap (table : SMap K K) (name comment : String)
  | setLists (energy transmission : List K) (name comment : String)

/-- One call. -/
def step (t : TransmissionTable K) : Op K → Outcome Unit × TransmissionTable K
  | .setName n => (.ok (), t.setName n)
  | .setComment c => (.ok (), t.setComment c)
  | .setMap m n c => t.setMap m n c
  | .setLists e tr n c => t.setLists e tr n c

/-- A history of calls. -/
def run (t : TransmissionTable K) (ops : List (Op K)) : TransmissionTable K :=
  ops.foldl (fun t op => (t.step op).2) t

end TransmissionTable
end Fisx
