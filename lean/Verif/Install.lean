import Verif.VectorApi
import Verif.Specfile

/-!
# Model of the adaptation of tables of mass attenuation coefficients

`Element::extractEdgeEnergiesFromMassAttenuationCoefficients` (/repo/src/fisx_element.cpp:494-600),
`Elements::setMassAttenuationCoefficients` and `Elements::setMassAttenuationCoefficientsFile`
(/repo/src/fisx_elements.cpp:616-984).

The EPDL97 library of the `Elements` instance is a parameter: these calls read it and do not change it.
-/

set_option linter.unusedSectionVars false

namespace Fisx

/-- The next statement of a call, when the previous one returned; otherwise the call ends with the state `s`. -/
def thenDo {α σ : Type} (o : Outcome α) (s : σ) (f : α → Outcome Unit × σ) : Outcome Unit × σ :=
  match o with
  | .ok a => f a
  | .throw x => (.throw x, s)
  | .ub u => (.ub u, s)
  | .diverge => (.diverge, s)

namespace Element

variable {K : Type} [Field K] [LinearOrder K]

/-- fisx_element.cpp:547-559: the energies that are repeated with a larger coefficient, each with the last index where
this happens. `i` is the index of the first of the values that are left. -/
def candidates : List K → List K → Nat → SMap K Nat → SMap K Nat
  | a :: b :: E, p :: q :: V, i, acc =>
    candidates (b :: E) (q :: V) (i + 1) (if a = b then (if p < q then acc.insert a i else acc) else acc)
  | _, _, _, acc => acc

/-- fisx_element.cpp:563-584: the candidates from the highest energy on and the shells K, L1, ..., M5, one to one. Reading
`bindingEnergy[key]` creates the entry when it is missing. -/
def pairShells : List (K × Nat) → List Str → SMap Str K → SMap Str (K × Nat) → SMap Str K × SMap Str (K × Nat)
  | (x, i) :: cs, k :: ks, b, r =>
    let b := if b.mem k then b else b.insert k 0
    let r := if at0 b k > 0 then (if |x - at0 b k| < 1 / 10 then r.insert k (x, i) else r) else r
    pairShells cs ks b r
  | _, _, b, r => (b, r)

/-- fisx_element.cpp:505-600, `extractEdgeEnergiesFromMassAttenuationCoefficients(muEnergy, muPhotoelectric)`. -/
def extractEdges (e : Element K) (E V : List K) : Outcome (SMap Str (K × Nat)) × Element K :=
  if V.length < 1 then (.throw .runtimeError, e)
  else if E.length < 1 then (.throw .runtimeError, e)
  else if E.length ≠ V.length then (.throw .runtimeError, e)
  else if e.binding.length < 1 then (.throw .runtimeError, e)
  else
    let r := pairShells (candidates E V 0 []).reverse keys e.binding []
    (.ok r.2, { e with binding := r.1 })

/-- fisx_element.cpp:494-503, without arguments: the coefficients of the element itself. -/
def extractOwnEdges (e : Element K) : Outcome (SMap Str (K × Nat)) × Element K :=
  match e.mu with
  | none => (.throw .runtimeError, e)
  | some t => if t.photoelectric.length < 1 then (.throw .runtimeError, e) else e.extractEdges e.muEnergy t.photoelectric

/-- The column of a map from names to vectors (`massAttenuationCoefficients[key]`, empty when there is none). -/
def col (t : SMap Str (List K)) (key : String) : List K := (t.find? key.toList).getD []

/-- fisx_elements.cpp:758-764, 972-978: the partial coefficients of the shells, one call after the other. -/
def setPartials (t : SMap Str (List K)) : List Str → Element K → Outcome Unit × Element K
  | [], e => (.ok (), e)
  | s :: ss, e =>
    let r := e.setPartial s (col t "energy") ((t.find? s).getD [])
    thenDo r.1 r.2 (fun _ => setPartials t ss r.2)

/-- fisx_elements.cpp:752-764, 966-978: set the coefficients and the partial ones of the ten shells. -/
def setAll (e : Element K) (t : SMap Str (List K)) : Outcome Unit × Element K :=
  let r := e.setMassAttenuationCoefficients (col t "energy") (col t "photoelectric") (col t "coherent")
    (col t "compton") (col t "pair")
  thenDo r.1 r.2 (fun _ => setPartials t photoShells r.2)

/-- fisx_elements.cpp:771-774: the number of energies below `x`, up to the first one that is not; past the end when there
is none. -/
def countBelow (x : K) : List K → Outcome Nat
  | [] => .ub .outOfBounds
  | a :: r => if a < x then (do let n ← countBelow x r; return n + 1) else .ok 0

/-- fisx_elements.cpp:771-778: how many of the energies of EPDL97 are kept. -/
def keptEnergies (table energy : List K) : Outcome Nat := do
  let x ← vget energy 0
  let n ← countBelow x table
  return n - 1

/-- fisx_elements.cpp:805-828: the energy at position `t` of the supplied ones, moved to the binding energy when it is
just above an edge that is too low (for `t = 0` the comparison `i - j - 1 == ...` is between the largest `size_t` and an
index: false). -/
def aboveEdge (edges : SMap Str (K × Nat)) (binding : SMap Str K) (t : Nat) (x : K) : K :=
  photoShells.foldl (fun v s =>
    match edges.find? s with
    | some (y, i) => if t = i + 1 ∧ y < at0 binding s then at0 binding s else v
    | none => v) x

/-- fisx_elements.cpp:803-837: the supplied energies, from position `t` on; `prev` is the last energy of the grid. -/
def gridLoop (edges : SMap Str (K × Nat)) (binding : SMap Str K) (extended : Bool) : List K → Nat → K → List K
  | [], _, _ => []
  | x :: xs, t, prev =>
    let v := aboveEdge edges binding t x
    let v := if extended then (if v < prev then prev + 1 / 1000000 else v) else v
    v :: gridLoop edges binding extended xs (t + 1) v

/-- fisx_elements.cpp:797-837: the new energies, `j` of EPDL97 and the supplied ones. -/
def newGrid (edges : SMap Str (K × Nat)) (binding : SMap Str K) (table energy : List K) (j : Nat) : List K :=
  table.take j ++ gridLoop edges binding (decide (j > 0)) energy 0 ((table.take j).getLastD 0)

/-- fisx_elements.cpp:870-886, 897-900: `dst[i] = src[i - j]`, `count` times from index `i` on. `dst` has the length of
the grid. -/
def paste (src : List K) (j : Nat) : Nat → Nat → List K → Outcome (List K)
  | 0, _, dst => .ok dst
  | n + 1, i, dst => do
    let v ← vget src (i - j)
    paste src j n (i + 1) (dst.set i v)

/-- fisx_elements.cpp:923-933, 947-957: `photoelectric[i - j] * (dst[i] / old[i])`, or zero. -/
def rescaled (old photo dst : List K) (j i : Nat) : Outcome K := do
  let t ← vget old i
  if t > 0 then do
    let y ← vget dst i
    let p ← vget photo (i - j)
    return p * (y / t)
  else .ok 0

/-- fisx_elements.cpp:921-934, 945-957: the values from index `i` on, `count` of them. -/
def rescale (old photo : List K) (j : Nat) : Nat → Nat → List K → Outcome (List K)
  | 0, _, dst => .ok dst
  | n + 1, i, dst => do
    let y ← rescaled old photo dst j i
    rescale old photo j n (i + 1) (dst.set i y)

/-- fisx_elements.cpp:909-958: the partial coefficients of one shell; `len` is the length of the grid. -/
def shellColumn (edges : SMap Str (K × Nat)) (old photo : List K) (j len : Nat) (s : Str) (c : List K) : Outcome (List K) :=
  if edges.length > 0 then
    match edges.find? s with
    | some (_, idx) =>
      rescale old photo j (len - (j + idx + 1)) (j + idx + 1)
        (List.replicate (j + idx + 1) 0 ++ c.drop (j + idx + 1))
    | none => .ok c
  else rescale old photo j (len - j) j c

/-- fisx_elements.cpp:907-961: the loop over the shells. -/
def shellColumns (edges : SMap Str (K × Nat)) (old photo : List K) (j len : Nat) :
    List Str → SMap Str (List K) → Outcome (SMap Str (List K))
  | [], m => .ok m
  | s :: ss, m => do
    let c ← shellColumn edges old photo j len s ((m.find? s).getD [])
    shellColumns edges old photo j len ss (m.insert s c)

variable [Trans K]

/-- fisx_elements.cpp:797-961: the table to be set, for the element with the EPDL97 values. -/
def newTable (e : Element K) (edges : SMap Str (K × Nat)) (table : List K) (j : Nat)
    (energy photo coherent compton pair : List K) : Outcome (SMap Str (List K)) := do
  let grid := newGrid edges e.binding table energy j
  let m ← e.getMus grid
  if (col m "energy").length ≠ grid.length then .throw .runtimeError
  else do
    let len := grid.length
    let coh ← paste coherent j (len - j) j (col m "coherent")
    let com ← paste compton j (len - j) j (col m "compton")
    let pai ← paste pair j (len - j) j (col m "pair")
    let pho ← paste photo j (len - j) j (col m "photoelectric")
    shellColumns edges (col m "photoelectric") photo j len photoShells
      ((((m.insert "coherent".toList coh).insert "compton".toList com).insert "pair".toList pai).insert
        "photoelectric".toList pho)

/-- fisx_elements.cpp:766-978: what follows the reset to the EPDL97 values, whose energies are `table`. The edges are
extracted twice from the same vectors (L783, L906), with the same result. -/
def adapt (e : Element K) (table energy photo coherent compton pair : List K) : Outcome Unit × Element K :=
  thenDo (keptEnergies table energy) e (fun j =>
    let x := e.extractEdges energy photo
    thenDo x.1 x.2 (fun edges =>
      thenDo (newTable x.2 edges table j energy photo coherent compton pair) x.2 (fun t => x.2.setAll t)))

/-- fisx_elements.cpp:748-978, on the element. -/
def install (epdl : EPDL97 K) (e : Element K) (energy photo coherent compton pair : List K) : Outcome Unit × Element K :=
  thenDo (epdl.getTable e.atomicNumber) e (fun t =>
    let r := e.setAll t
    thenDo r.1 r.2 (fun _ => adapt r.2 (col t "energy") energy photo coherent compton pair))

end Element

namespace Library

variable {K : Type} [Field K] [LinearOrder K] [Trans K]

/-- fisx_elements.cpp:716-978, `setMassAttenuationCoefficients`. -/
def setMu (epdl : EPDL97 K) (L : Library K) (name : String) (energy photo coherent compton pair : List K) :
    Outcome Unit × Library K :=
  match L.dict.find? name with
  | none => (.throw .invalidArgument, L)
  | some i =>
    match L.elements[i]? with
    | none => (.ub .outOfBounds, L)
    | some e =>
      let r := e.data.install epdl energy photo coherent compton pair
      (r.1, { L with elements := L.elements.set i { e with data := r.2 } })

/-- fisx_elements.cpp:981-994: the table of an element; `none` when the coefficients have not been set. -/
def getMuTable (L : Library K) (name : String) : Outcome (List K × Option (MuTable K)) :=
  match L.dict.find? name with
  | none => .throw .invalidArgument
  | some i => do
    let e ← vget L.elements i
    return (e.data.muEnergy, e.data.mu)

/-- fisx_elements.cpp:648-654 (and the same for the other columns): column `i` of the rows. -/
def fileColumn (i : Nat) : List (List K) → Outcome (List K)
  | [] => .ok []
  | r :: rs => do
    let v ← vget r i
    let c ← fileColumn i rs
    return v :: c

/-- The vectors filled from a scan (fisx_elements.cpp:621-626). -/
structure FileTable (K : Type) where
  energy : List K
  photo : List K
  coherent : List K
  compton : List K
  pair : List K
deriving DecidableEq, Repr

/-- fisx_elements.cpp:646-699: the vectors a column is copied to, given its label. -/
def assignColumn (label : Str) (c : List K) (t : FileTable K) : FileTable K :=
  let key := Str.upper label
  let has (s : String) : Bool := EPDL97.contains key s.toList
  { energy := if has "ENERGY" then c else t.energy
    photo := if has "PHOTO" then c else t.photo
    pair := if has "PAIR" then c else t.pair
    compton := if has "COMPTON" then c else t.compton
    coherent := if has "RAYLEIGH" || (has "COHERENT" && !has "INCOHERENT") then c else t.coherent }

/-- Is a column with this label copied to one of the vectors? -/
def usedLabel (label : Str) : Bool :=
  let key := Str.upper label
  let has (s : String) : Bool := EPDL97.contains key s.toList
  has "ENERGY" || has "PHOTO" || has "PAIR" || has "COMPTON" || has "RAYLEIGH" || (has "COHERENT" && !has "INCOHERENT")

/-- fisx_elements.cpp:644-699: the loop over the labels, from column `i` on. A column is only read when its label is
recognised. -/
def columnsLoop (rows : List (List K)) : List Str → Nat → FileTable K → Outcome (FileTable K)
  | [], _, t => .ok t
  | l :: ls, i, t =>
    if usedLabel l then do
      let c ← fileColumn i rows
      columnsLoop rows ls (i + 1) (assignColumn l c t)
    else columnsLoop rows ls (i + 1) t

/-- fisx_elements.cpp:637-699: the vectors of scan `n`. -/
def fileTable (strtod : Str → K) (r : Specfile.Reader) (n : Nat) : Outcome (FileTable K) := do
  let labels ← Specfile.getScanLabels r n
  let rows ← Specfile.getScanData strtod r n
  columnsLoop rows labels 0 { energy := [], photo := [], coherent := [], compton := [], pair := [] }

/-- fisx_elements.cpp:635-713: the scans from scan `n` on, `count` of them. -/
def muScans (epdl : EPDL97 K) (strtod : Str → K) (r : Specfile.Reader) : Nat → Nat → Library K → Outcome Unit × Library K
  | 0, _, L => (.ok (), L)
  | count + 1, n, L =>
    thenDo (fileTable strtod r n) L (fun t =>
      thenDo (vget L.elements n) L (fun e =>
        let q := L.setMu epdl e.name t.energy t.photo t.coherent t.compton t.pair
        thenDo q.1 q.2 (fun _ => muScans epdl strtod r count (n + 1) q.2)))

/-- fisx_elements.cpp:616-714, `setMassAttenuationCoefficientsFile`, with the text of the file (`none`: it cannot be
opened). -/
def setMuFile (epdl : EPDL97 K) (strtod : Str → K) (L : Library K) (text : Option Str) : Outcome Unit × Library K :=
  let r := Specfile.setFileName (Specfile.File.ofText text)
  if Specfile.getNumberOfScans r < 1 then (.throw .ioFailure, L)
  else muScans epdl strtod r (Specfile.getNumberOfScans r) 0 L

end Library
end Fisx
