import Verif.Base
import Verif.SMap

/-!
# Model of `fisx::Material` (/repo/src/fisx_material.cpp, /repo/src/fisx_material.h)
-/

namespace Fisx

variable {K : Type} [Field K] [LinearOrder K]

/-- fisx_material.h:84-90, the data members of `Material`. -/
structure Material (K : Type) where
  name : String
  initialized : Bool
  composition : SMap String K
  defaultDensity : K
  defaultThickness : K
  comment : String
deriving Repr

namespace Material

/-- fisx_material.cpp:35-42, the default constructor. -/
def new : Material K :=
  { name := "Unset name", initialized := false, composition := [],
    defaultDensity := 1, defaultThickness := 1, comment := "" }

/-- fisx_material.cpp:63-93, `initialize`: three checks, then the assignments. -/
def init (m : Material K) (name : String) (density thickness : K) (comment : String) :
    Outcome Unit × Material K :=
  if name.length < 1 then (.throw .invalidArgument, m)
  else if density ≤ 0 then (.throw .invalidArgument, m)
  else if thickness ≤ 0 then (.throw .invalidArgument, m)
  else (.ok (), { m with name := name, defaultDensity := density, defaultThickness := thickness,
                         comment := comment, initialized := true })

/-- fisx_material.cpp:51-61, `setName`. -/
def setName (m : Material K) (name : String) : Outcome Unit × Material K :=
  if m.initialized then (.throw .invalidArgument, m)
  else m.init name m.defaultDensity m.defaultThickness m.comment

/-- fisx_material.cpp:128-137, the first loop: check each amount, accumulate the total. -/
def checkAmounts (amounts : List K) (total : K) : Outcome K :=
  match amounts with
  | [] => .ok total
  | a :: rest => if a ≤ 0 then .throw .invalidArgument else checkAmounts rest (total + a)

/-- fisx_material.cpp:141-144, the second loop: `composition[names[i]] = amounts[i] / total`.
The sizes have been checked equal, so `names[i]` is always valid and the loop walks the pairs. -/
def fillComposition (pairs : List (String × K)) (total : K) (c : SMap String K) : SMap String K :=
  match pairs with
  | [] => c
  | (n, a) :: rest => fillComposition rest total (c.insert n (a / total))

/-- fisx_material.cpp:110-146, `setComposition(names, amounts)`. -/
def setComposition (m : Material K) (names : List String) (amounts : List K) :
    Outcome Unit × Material K :=
  if names.length ≠ amounts.length then (.throw .invalidArgument, m)
  else
    match checkAmounts amounts 0 with
    | .ok total => (.ok (), { m with composition := fillComposition (names.zip amounts) total [] })
    | .throw e => (.throw e, m)
    | .ub u => (.ub u, m)
    | .diverge => (.diverge, m)

/-- fisx_material.cpp:95-108, `setComposition(map)`: copies keys and values to vectors. -/
def setCompositionMap (m : Material K) (c : SMap String K) : Outcome Unit × Material K :=
  m.setComposition (c.map Prod.fst) (c.map Prod.snd)

/-- fisx_material.cpp:44-48, the constructor with arguments; `none` when it throws. The bases of the
uninitialised members (density, thickness, flag) are those of the default constructor, they are all
overwritten when no exception is thrown. -/
def mk? (name : String) (density thickness : K) (comment : String) : Outcome (Material K) :=
  match (new : Material K).init name density thickness comment with
  | (.ok _, m) => .ok m
  | (.throw e, _) => .throw e
  | (.ub u, _) => .ub u
  | (.diverge, _) => .diverge

/-- The mutating part of the public API (fisx_material.h:58-72). -/
inductive Op (K : Type)
  | setName (name : String)
  | init (name : String) (density thickness : K) (comment : String)
  | setComposition (names : List String) (amounts : List K)
  | setCompositionMap (c : SMap String K)

/-- One API call. -/
def step (m : Material K) : Op K → Outcome Unit × Material K
  | .setName n => m.setName n
  | .init n d t c => m.init n d t c
  | .setComposition ns as => m.setComposition ns as
  | .setCompositionMap c => m.setCompositionMap c

/-- A history of calls; exceptions are caught by the caller, who carries on. -/
def run (m : Material K) (ops : List (Op K)) : Material K :=
  ops.foldl (fun m op => (m.step op).2) m

end Material
end Fisx
