import Verif.Base
import Verif.SMap

/-!
# Model of `fisx::Beam` (/repo/src/fisx_beam.cpp, /repo/src/fisx_beam.h)
-/

namespace Fisx

/-- fisx_beam.h:36-56, `struct Ray` (the ordering of L52-55 compares energies only). -/
structure Ray (K : Type) where
  energy : K
  weight : K
  characteristic : Int
  divergency : K
deriving DecidableEq, Repr

/-- fisx_beam.h:112-115, the data members of `Beam`. -/
structure Beam (K : Type) where
  normalized : Bool
  rays : List (Ray K)
deriving DecidableEq, Repr

namespace Beam

variable {K : Type} [Field K] [LinearOrder K]

/-- fisx_beam.cpp:34-37, the constructor. -/
def new : Beam K := { normalized := false, rays := [] }

/-- fisx_beam.cpp:85-93 (weight), 96-103 (characteristic), 107-115 (divergency): with more than one
supplied element the `i`-th is read without any check, otherwise the single supplied element
(L62-78) or the library default is used. -/
def pick {α : Type} (v : List α) (dflt : α) (i : Nat) : Outcome α :=
  if v.length > 1 then vget v i
  else .ok (match v with | [] => dflt | a :: _ => a)

/-- fisx_beam.cpp:80-117, the loop over the rays, starting at index `i`. -/
def buildRays (energy : List K) (i : Nat) (weight : List K) (characteristic : List Int)
    (divergency : List K) : Outcome (List (Ray K)) :=
  match energy with
  | [] => .ok []
  | e :: rest => do
    let w ← pick weight 1 i
    let c ← pick characteristic 1 i
    let d ← pick divergency 0 i
    let r ← buildRays rest (i + 1) weight characteristic divergency
    return { energy := e, weight := w, characteristic := c, divergency := d } :: r

/-- fisx_beam.cpp:198-201, the sum of the weights. -/
def totalWeight (rays : List (Ray K)) : K := (rays.map Ray.weight).sum

/-- fisx_beam.cpp:189-211, `normalizeBeam`. `std::sort` is the parameter `sort`: the standard does not
say how rays of equal energy are ordered, so the theorems quantify over every `sort` that returns a
sorted permutation. -/
def normalizeBeam (sort : List (Ray K) → List (Ray K)) (rays : List (Ray K)) : Beam K :=
  let total := totalWeight rays
  let scaled := if total > 0 then rays.map (fun r => { r with weight := r.weight / total }) else rays
  { normalized := true, rays := sort scaled }

/-- fisx_beam.cpp:39-119, `setBeam` with vectors. -/
def setBeam (sort : List (Ray K) → List (Ray K)) (b : Beam K) (energy weight : List K)
    (characteristic : List Int) (divergency : List K) : Outcome Unit × Beam K :=
  if energy.length > 0 then
    match buildRays energy 0 weight characteristic divergency with
    | .ok rays => (.ok (), normalizeBeam sort rays)
    | .throw e => (.throw e, b)
    | .ub u => (.ub u, b)
    | .diverge => (.diverge, b)
  else (.ok (), { normalized := false, rays := [] })

/-- fisx_beam.cpp:121-132, `setSingleEnergyBeam`. -/
def setSingleEnergyBeam (sort : List (Ray K) → List (Ray K)) (_b : Beam K) (energy divergency : K) :
    Outcome Unit × Beam K :=
  (.ok (), normalizeBeam sort
    [{ energy := energy, weight := 1, characteristic := 1, divergency := divergency }])

/-- fisx_beam.cpp:149-168: an array that may be a null pointer (`none`). -/
def pickPtr {α : Type} (v : Option (List α)) (dflt : α) (i : Nat) : Outcome α :=
  match v with
  | none => .ok dflt
  | some l => vget l i

/-- fisx_beam.cpp:146-170, the loop of the pointer overload; each array is `none` for a null pointer. -/
def buildRaysPtr (n : Nat) (i : Nat) (energy : List K) (weight : Option (List K))
    (characteristic : Option (List Int)) (divergency : Option (List K)) : Outcome (List (Ray K)) :=
  match n with
  | 0 => .ok []
  | n + 1 => do
    let e ← vget energy i
    let w ← pickPtr weight 1 i
    let c ← pickPtr characteristic 1 i
    let d ← pickPtr divergency 0 i
    let r ← buildRaysPtr n (i + 1) energy weight characteristic divergency
    return { energy := e, weight := w, characteristic := c, divergency := d } :: r

/-- fisx_beam.cpp:134-172, `setBeam` with pointers and an `int` characteristic array
(`nValues` non negative: a negative count makes `resize` throw and is left out). -/
def setBeamPtr (sort : List (Ray K) → List (Ray K)) (b : Beam K) (n : Nat) (energy : List K)
    (weight : Option (List K)) (characteristic : Option (List Int)) (divergency : Option (List K)) :
    Outcome Unit × Beam K :=
  match buildRaysPtr n 0 energy weight characteristic divergency with
  | .ok rays => (.ok (), normalizeBeam sort rays)
  | .throw e => (.throw e, b)
  | .ub u => (.ub u, b)
  | .diverge => (.diverge, b)

/-- fisx_beam.cpp:174-187, the overload with an array of `double` characteristics: they are truncated to integers
(`trunc`), and the pointer is not tested. -/
def setBeamPtrD (trunc : K → Int) (sort : List (Ray K) → List (Ray K)) (b : Beam K) (n : Nat) (energy : List K)
    (weight : Option (List K)) (characteristic : Option (List K)) (divergency : Option (List K)) :
    Outcome Unit × Beam K :=
  match characteristic with
  | none => if n = 0 then b.setBeamPtr sort n energy weight (some []) divergency else (.ub .nullDeref, b)
  | some c =>
    if c.length < n then (.ub .outOfBounds, b)
    else b.setBeamPtr sort n energy weight (some ((c.take n).map trunc)) divergency

/-- fisx_beam.cpp:213-242, `getBeamAsDoubleVectors`, with the four vectors as a tuple and the integer
flag kept as an integer. -/
def asVectors (b : Beam K) : List K × List K × List Int × List K :=
  (b.rays.map Ray.energy, b.rays.map Ray.weight, b.rays.map Ray.characteristic,
    b.rays.map Ray.divergency)

end Beam
end Fisx
