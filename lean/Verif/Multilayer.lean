import Verif.Xrf
import Verif.MathFn

/-!
# Model of `XRF::getMultilayerFluorescence` (/repo/src/fisx_multilayer.cpp)

The calculation is written over an environment `Env` of the physical functions it calls (composition and coefficients of
the layers, excitation factors, transmissions, escape peaks, integrals of de Boer, `exp`); `Verif/MultilayerEnv.lean`
builds that environment from the configuration and the elements library.

The entry of a line in the result, a `map<string, double>` in the code, is the structure `Leaf`: one field per fixed key, 0
when the code has not written the key, and the contributions to the secondary excitation in a map of their own. Their keys
contain a blank (`"Fe KL3 00"`), so that they are different from the fixed keys.
The caches of L148-150 (`excitationFactorsCache`) and of the detector (`getEscape`, emptied by the first call because of
`updateEscape`, see C11) return what the functions of the environment return and are left out.
-/

namespace Fisx
namespace Multilayer

open Xrf (Request)

variable {K : Type} [Field K] [LinearOrder K]

/-- fisx_multilayer.cpp:559-565, 1053-1057, 1083, 1188: the entry of a line or of an escape peak. -/
structure Leaf (K : Type) where
  energy : K
  efficiency : K
  threshold : K
  mu : K
  rate : K
  primary : K
  secondary : K
  massFraction : K
  ratio : K
  tertiary : K
  contrib : SMap Str K
deriving DecidableEq, Repr

/-- An entry without any key. -/
def Leaf.zero : Leaf K :=
  { energy := 0, efficiency := 0, threshold := 0, mu := 0, rate := 0, primary := 0, secondary := 0,
    massFraction := 0, ratio := 0, tertiary := 0, contrib := [] }

/-- fisx_multilayer.cpp:79: request, layer and line. -/
abbrev Result (K : Type) := SMap String (SMap Nat (SMap Str (Leaf K)))

/-- The lines of a request in a layer. -/
def linesOf (r : Result K) (k : String) (i : Nat) : SMap Str (Leaf K) :=
  (((SMap.find? r k).getD []).find? i).getD []

/-- The entry of a line, if there is one. -/
def leaf? (r : Result K) (k : String) (i : Nat) (t : Str) : Option (Leaf K) := (linesOf r k i).find? t

/-- `actualResult[k][i][t] = v` (field by field in the code). -/
def put (r : Result K) (k : String) (i : Nat) (t : Str) (v : Leaf K) : Result K :=
  SMap.insert r k (((SMap.find? r k).getD []).insert i ((linesOf r k i).insert t v))

/-- What is used of a layer of the sample (fisx_multilayer.cpp:89-92, 107-122, 196-197). -/
structure LayerData (K : Type) where
  density : K
  thickness : K
  composition : SMap String K
  geometric : K

/-- The functions called by `getMultilayerFluorescence`, for a given configuration and library. -/
structure Env (K : Type) where
  layers : List (LayerData K)
  /-- L71-72. -/
  sinIn : K
  sinOut : K
  exp : K → K
  /-- `getLayerMassAttenuationCoefficients(sample[i], energy)["total"]`. -/
  mu : Nat → K → Outcome K
  /-- `getLayerMassAttenuationCoefficients(sample[i], energies)`. -/
  mus : Nat → List K → Outcome (List (Mix K))
  /-- `getLayerPeakFamilies(sample[i], energy)`. -/
  families : Nat → K → Outcome (List (String × K))
  /-- `getExcitationFactors(element, energy, weight)`. -/
  excite : String → K → K → Outcome (SMap Str (Factor K))
  /-- `getEnergyThreshold(element, family)`. -/
  threshold : String → String → Outcome K
  /-- L513-517: transmission of a layer of the sample at the outgoing angle. -/
  transmission : Nat → K → Outcome K
  /-- L523-526. -/
  attenuators : List (K → Outcome K)
  /-- L531. -/
  tables : List (K → K)
  /-- L540: the detector has a material. -/
  hasDetector : Bool
  /-- L542-549: the intrinsic efficiency, 1 without density or thickness. -/
  intrinsic : K → Outcome K
  /-- L551-554, 1033-1036. -/
  escape : K → Outcome (SMap String (Line K))
  /-- `Math::deBoerL0`. -/
  l0 : K → K → K → K → K → Outcome K
  /-- `Math::deBoerX`. -/
  x : K → K → K → K → K → K → K → Outcome K

/-- fisx_multilayer.cpp:45-48: the options. -/
structure Options (K : Type) where
  secondary : Int
  useMassFractions : Bool
  limit : K

/-- One source of secondary excitation in a layer (fisx_multilayer.cpp:127-130): a line or the scattered beam. -/
structure Emission (K : Type) where
  name : Str
  energy : K
  rate : K
  mu : K
deriving DecidableEq, Repr

/-- What is computed once for a ray (fisx_multilayer.cpp:180-337). -/
structure RayData (K : Type) where
  energy : K
  weight : K
  /-- Beam fraction reaching each layer and its coefficient at the energy of the beam. -/
  incident : List (K × K)
  emissions : List (List (Emission K))
  cacheEnergies : List K
  cacheMus : List (List K)

/-- fisx_multilayer.cpp:183-200: weights and coefficients of the layers, from layer `i` on. -/
def incident (env : Env K) (e : K) : Nat → List (LayerData K) → K → Outcome (List (K × K))
  | _, [], _ => .ok []
  | i, l :: rest, acc => do
    let m ← env.mu i e
    let r ← incident env e (i + 1) rest (acc + l.density * l.thickness * m / env.sinIn)
    return (if i = 0 then 1 else env.exp (-acc), m) :: r

/-- fisx_multilayer.cpp:240-243: the parts of a peak family name. -/
def familyParts (s : Str) : Str × Str :=
  match s.dropWhile (fun c => c ≠ ' ') with
  | [] => (s, s)
  | _ :: f => (s.takeWhile (fun c => c ≠ ' '), f)

/-- fisx_multilayer.cpp:254-303: the lines of one peak family: name, energy and rate. -/
def familyLines (o : Options K) (minE frac w lw : K) (ele family : Str) (fs : List (Str × Factor K)) :
    List (Str × K × K) :=
  match fs with
  | [] => []
  | (t, f) :: rest =>
    let r := familyLines o minE frac w lw ele family rest
    if Shell.startsWith t family = false then r
    else if f.rate * frac ≤ 0 then r
    else if o.limit > 0 ∧ f.rate < o.limit then r
    else if f.energy < minE then r
    else (ele ++ ' ' :: t, f.energy, f.rate * frac * w * lw) :: r

/-- fisx_multilayer.cpp:238-305, the loop over the peak families (L244-252 only avoid repeated calls). -/
def familiesLoop (env : Env K) (o : Options K) (minE e w lw : K) (comp : SMap String K) :
    List (String × K) → Outcome (List (Str × K × K))
  | [] => .ok []
  | f :: rest => do
    let p := familyParts f.1.toList
    let fs ← env.excite (String.ofList p.1) e 1
    let r ← familiesLoop env o minE e w lw comp rest
    return familyLines o minE ((comp.find? (String.ofList p.1)).getD 0) w lw p.1 p.2 fs ++ r

/-- fisx_multilayer.cpp:206-323: the emissions of layer `i`. The library gives as many coefficients as it is given
energies (`Library.mixList`), so that the vectors of the code have the same length. -/
def layerEmissions (env : Env K) (o : Options K) (minE e w : K) (i : Nat) (l : LayerData K) (lw : K) :
    Outcome (List (Emission K)) := do
  let fam ← env.families i e
  let raw ← familiesLoop env o minE e w lw l.composition fam
  let ms ← env.mus i (raw.map (fun p => p.2.1) ++ [e])
  match ms.getLast? with
  | none => .ub .outOfBounds
  | some last =>
    return List.zipWith (fun p (m : Mix K) => { name := p.1, energy := p.2.1, rate := p.2.2, mu := m.total })
      (raw ++ [("coherent scattering".toList, e, (w * lw) * last.coherent)]) ms

/-- fisx_multilayer.cpp:204-324: all layers. -/
def emissionsLoop (env : Env K) (o : Options K) (minE e w : K) : Nat → List (LayerData K) → List (K × K) →
    Outcome (List (List (Emission K)))
  | i, l :: ls, p :: ps => do
    let em ← layerEmissions env o minE e w i l p.1
    let r ← emissionsLoop env o minE e w (i + 1) ls ps
    return em :: r
  | _, _, _ => .ok []

/-- fisx_multilayer.cpp:345-353: the coefficients of all layers at the energies of all emissions. -/
def cacheLoop (env : Env K) (es : List K) : Nat → Nat → Outcome (List (List K))
  | _, 0 => .ok []
  | i, n + 1 => do
    let ms ← env.mus i es
    let r ← cacheLoop env es (i + 1) n
    return ms.map Mix.total :: r

/-- fisx_multilayer.cpp:180-353: everything needed for a ray. -/
def rayData (env : Env K) (o : Options K) (minE e w : K) : Outcome (RayData K) := do
  let inc ← incident env e 0 env.layers 0
  let ems ← (if o.secondary > 0 then emissionsLoop env o minE e w 0 env.layers inc else .ok [])
  -- L341-343: sorted and without repetitions
  let es := (SMap.ofList (ems.flatten.map (fun m => (m.energy, ())))).keys
  let cs ← cacheLoop env es 0 env.layers.length
  return { energy := e, weight := w, incident := inc, emissions := ems, cacheEnergies := es, cacheMus := cs }

/-- The working values of a line (the map `result` of fisx_multilayer.cpp:78 for one layer). -/
structure Tmp (K : Type) where
  energy : K
  mu : K
  efficiency : K
  excRate : K
  primary : K
  secondary : K
  rate : K
deriving DecidableEq, Repr

/-- fisx_multilayer.cpp:431-440: the family looked for. -/
def actualFamily (f : String) : String := if f = "Ka" then "KL" else if f = "Kb" then "KM" else f

/-- fisx_multilayer.cpp:480-481: the line belongs to the family. -/
def inFamily (f : String) (t : Str) : Bool :=
  Shell.startsWith t (actualFamily f).toList ||
    (f == "Kb" && t.getD 0 '\x00' == 'K' && t.getD 1 '\x00' != 'L')

/-- fisx_multilayer.cpp:508-518: the layers above, from the nearest. -/
def upperLoop (env : Env K) (e : K) : Nat → K → Outcome K
  | 0, d => .ok d
  | j + 1, d => do
    let t ← env.transmission j e
    upperLoop env e j (d * t)

/-- fisx_multilayer.cpp:520-527. -/
def attenuatorLoop (e : K) : List (K → Outcome K) → K → Outcome K
  | [], d => .ok d
  | a :: rest, d => do
    let t ← a e
    attenuatorLoop e rest (d * t)

/-- fisx_multilayer.cpp:505-556: the detection efficiency of an energy emitted in layer `i`. -/
def efficiency (env : Env K) (i : Nat) (geometric e : K) : Outcome K := do
  let d ← upperLoop env e i 1
  let d ← attenuatorLoop e env.attenuators d
  let d := env.tables.foldl (fun d t => d * t e) d
  let d := d * geometric
  if env.hasDetector then do
    let q ← env.intrinsic e
    let _ ← env.escape e
    return d * q
  else return d

/-- fisx_multilayer.cpp:478-582: the lines of the request; the entries of new lines are created, known lines use the
values found the first time. -/
def openLines (env : Env K) (key family : String) (i : Nat) (geometric thr : K) :
    List (Str × Factor K) → Result K → Outcome (List (Str × Tmp K) × Result K)
  | [], res => .ok ([], res)
  | (t, f) :: rest, res =>
    if inFamily family t = false then openLines env key family i geometric thr rest res
    else if f.factor ≤ 0 then openLines env key family i geometric thr rest res
    else match leaf? res key i t with
      | some l => do
        let r ← openLines env key family i geometric thr rest res
        return ((t, { energy := l.energy, mu := l.mu, efficiency := l.efficiency, excRate := f.rate,
                      primary := 0, secondary := 0, rate := 0 }) :: r.1, r.2)
      | none => do
        let m ← env.mu i f.energy
        let d ← efficiency env i geometric f.energy
        let r ← openLines env key family i geometric thr rest
          (put res key i t { Leaf.zero with energy := f.energy, efficiency := d, threshold := thr, mu := m })
        return ((t, { energy := f.energy, mu := m, efficiency := d, excRate := f.rate,
                      primary := 0, secondary := 0, rate := 0 }) :: r.1, r.2)

/-- fisx_multilayer.cpp:599-618: the primary excitation. -/
def primaryOf (env : Env K) (l : LayerData K) (muIn lw frac : K) (p : Tmp K) : Tmp K :=
  let s := muIn / env.sinIn + p.mu / env.sinOut
  let g := (1 - env.exp (-s * l.density * l.thickness)) / s * (frac / env.sinIn)
  let pr := g * p.excRate * lw
  { p with primary := pr, rate := pr * p.efficiency, secondary := 0 }

/-- fisx_multilayer.cpp:690-737: secondary excitation of a line by an emission of the same layer. -/
def intra (env : Env K) (l : LayerData K) (muIn frac : K) (em : Emission K) (fs : SMap Str (Factor K)) (t : Str)
    (p : Tmp K) : Outcome (Option K) :=
  match fs.find? t with
  | none => .ok none
  | some f => do
    let a ← env.l0 (muIn / env.sinIn) (p.mu / env.sinOut) em.mu l.density l.thickness
    let b ← (if muIn / env.sinIn = em.mu then
      env.l0 (p.mu / env.sinOut) (muIn / (99999 / 100000 * env.sinIn)) em.mu l.density l.thickness
      else env.l0 (p.mu / env.sinOut) (muIn / env.sinIn) em.mu l.density l.thickness)
    return some ((a + b) * (frac * (1 / 2 / env.sinIn)) * (f.rate * em.rate))

/-- fisx_multilayer.cpp:812-828, 941-957: the coefficient of layer `i` at the energy of an emission. -/
def cachedMu (env : Env K) (rd : RayData K) (i : Nat) (e : K) : Outcome K :=
  if e ∈ rd.cacheEnergies then do
    let v ← vget rd.cacheMus i
    vget v (rd.cacheEnergies.findIdx (fun x => decide (x = e)))
  else env.mu i e

/-- fisx_multilayer.cpp:831-851, 960-983: mass thickness times coefficient of `n` layers from `b` on. -/
def betweenLoop (env : Env K) (rd : RayData K) (e : K) : Nat → Nat → K → Outcome K
  | _, 0, acc => .ok acc
  | b, n + 1, acc => do
    let l ← vget env.layers b
    let m ← cachedMu env rd b e
    betweenLoop env rd e (b + 1) n (acc + l.density * l.thickness * m)

/-- fisx_multilayer.cpp:790-888 (layer `j` below layer `i`) and 920-1016 (above): secondary excitation of a line of
layer `i` by an emission of layer `j`. -/
def inter (env : Env K) (rd : RayData K) (i j : Nat) (l1 l2 : LayerData K) (mu2 frac : K) (em : Emission K)
    (fs : SMap Str (Factor K)) (t : Str) (p : Tmp K) : Outcome (Option K) :=
  match fs.find? t with
  | none => .ok none
  | some f =>
    if f.rate < 1 / 10 ^ 30 then .ok none
    else do
      let mu1j ← cachedMu env rd i em.energy
      if i < j then do
        let mub ← betweenLoop env rd em.energy (i + 1) (j - (i + 1)) 0
        let g := env.exp (-p.mu * l1.density * l1.thickness / env.sinOut)
        if g < 1 / 1000 then return none
        else do
          let v ← (if -(mu2 / env.sinIn) = em.mu then
            env.x (mu2 / (99999 / 100000 * env.sinIn)) (p.mu / env.sinOut) (l1.density * l1.thickness)
              (l2.density * l2.thickness) mu1j em.mu mub
            else env.x (mu2 / env.sinIn) (p.mu / env.sinOut) (l1.density * l1.thickness)
              (l2.density * l2.thickness) mu1j em.mu mub)
          return some (g * em.rate * v * (frac * (1 / 2 / env.sinIn)) * f.rate)
      else do
        let mub ← betweenLoop env rd em.energy (j + 1) (i - (j + 1)) 0
        let g := env.exp (-mu2 * l2.density * l2.thickness / env.sinIn)
        let v ← (if mu2 / env.sinIn = em.mu then
          env.x (-mu2 / (99999 / 100000 * env.sinIn)) (-p.mu / env.sinOut) (l1.density * l1.thickness)
            (l2.density * l2.thickness) mu1j em.mu mub
          else env.x (-mu2 / env.sinIn) (-p.mu / env.sinOut) (l1.density * l1.thickness)
            (l2.density * l2.thickness) mu1j em.mu mub)
        return some (g * em.rate * v * (frac * (1 / 2 / env.sinIn)) * f.rate)

/-- The decimal digits of a layer index: at least two characters (`setfill('0') << setw(2)`). -/
def twoDigits (j : Nat) : Str :=
  let s := (Nat.repr j).toList
  if s.length < 2 then '0' :: s else s

/-- fisx_multilayer.cpp:722-725, 874-877, 1002-1005: the name of a contribution. -/
def contribName (em : Emission K) (j : Nat) : Str := em.name ++ ' ' :: twoDigits j

/-- One contribution: line, name and value. -/
abbrev Contribution (K : Type) := Str × Str × K

/-- The loops over the lines (fisx_multilayer.cpp:690, 785, 920). -/
def lineLoop (f : Str → Tmp K → Outcome (Option K)) (name : Str) : List (Str × Tmp K) →
    Outcome (List (Contribution K))
  | [] => .ok []
  | (t, p) :: rest => do
    let v ← f t p
    let r ← lineLoop f name rest
    match v with
    | none => return r
    | some v => return (t, name, v) :: r

/-- fisx_multilayer.cpp:667-690, 757-785, 892-920: the loop over the emissions of layer `j`. -/
def emissionLoop (env : Env K) (element : String) (thr : K) (j : Nat) (lines : List (Str × Tmp K))
    (f : Emission K → SMap Str (Factor K) → Str → Tmp K → Outcome (Option K)) :
    List (Emission K) → Outcome (List (Contribution K))
  | [] => .ok []
  | em :: rest =>
    if thr > em.energy then emissionLoop env element thr j lines f rest
    else do
      let fs ← env.excite element em.energy 1
      let a ← lineLoop (f em fs) (contribName em j) lines
      let r ← emissionLoop env element thr j lines f rest
      return a ++ r

/-- fisx_multilayer.cpp:658-1021: the contributions of `n` layers from layer `j` on to the lines of layer `i`. -/
def secondaryLoop (env : Env K) (rd : RayData K) (element : String) (thr : K) (i : Nat) (l : LayerData K)
    (muIn lw frac : K) (lines : List (Str × Tmp K)) : Nat → Nat → Outcome (List (Contribution K))
  | _, 0 => .ok []
  | j, n + 1 => do
    let ems ← vget rd.emissions j
    let p ← vget rd.incident j
    let l2 ← vget env.layers j
    let a ← (if i = j then emissionLoop env element thr j lines (intra env l muIn frac) ems
      else if p.1 / lw < 1 / 10000 then .ok []
      else emissionLoop env element thr j lines (inter env rd i j l l2 p.2 frac) ems)
    let r ← secondaryLoop env rd element thr i l muIn lw frac lines (j + 1) n
    return a ++ r

/-- `m[k] += v` on a map of numbers. -/
def addAt (m : SMap Str K) (k : Str) (v : K) : SMap Str K := m.insert k ((m.find? k).getD 0 + v)

/-- fisx_multilayer.cpp:726-737, 878-888, 1006-1016: a contribution is added to the entry of the line (only to its
contributions) and to its working values. -/
def addContribution (key : String) (i : Nat) (s : List (Str × Tmp K) × Result K) (c : Contribution K) :
    List (Str × Tmp K) × Result K :=
  (s.1.map (fun e => if e.1 = c.1 then
      (e.1, { e.2 with secondary := e.2.secondary + c.2.2, rate := e.2.rate + c.2.2 * e.2.efficiency }) else e),
   let l := (leaf? s.2 key i c.1).getD Leaf.zero
   put s.2 key i c.1 { l with contrib := addAt l.contrib c.2.1 c.2.2 })

/-- fisx_multilayer.cpp:1041-1080: the escape peaks of a line. -/
def depositEscapes (key : String) (i : Nat) (t : Str) (p : Tmp K) : List (String × Line K) → Result K → Result K
  | [], res => res
  | (n, e) :: rest, res =>
    let name := t ++ ' ' :: n.toList
    let l := (leaf? res key i name).getD { Leaf.zero with energy := e.energy }
    depositEscapes key i t p rest (put res key i name { l with
      rate := l.rate + e.rate * p.rate, ratio := e.rate, primary := l.primary + e.rate * p.primary,
      secondary := l.secondary + e.rate * p.secondary })

/-- fisx_multilayer.cpp:1026-1089: the lines are added to the result. -/
def deposit (env : Env K) (key : String) (i : Nat) (massFraction : K) :
    List (Str × Tmp K) → Result K → Outcome (Result K)
  | [], res => .ok res
  | (t, p) :: rest, res => do
    let esc ← (if env.hasDetector then env.escape p.energy else .ok [])
    let res := depositEscapes key i t p esc res
    let l := (leaf? res key i t).getD Leaf.zero
    deposit env key i massFraction rest (put res key i t { l with
      rate := l.rate + (1 - (esc.map (fun e => e.2.rate)).sum) * p.rate, primary := l.primary + p.primary,
      secondary := l.secondary + p.secondary, massFraction := massFraction })

/-- fisx_multilayer.cpp:446-1089: one layer for one request and one ray. -/
def cell (env : Env K) (o : Options K) (rd : RayData K) (req : Request) (thr : K) (factors : SMap Str (Factor K))
    (i : Nat) (l : LayerData K) (res : Result K) : Outcome (Result K) :=
  if req.layer ≥ 0 ∧ (i : Int) ≠ req.layer then .ok res
  else
    let massFraction := (l.composition.find? req.element).getD 0
    let frac := if o.useMassFractions then massFraction else 1
    let key := req.element ++ " " ++ req.family
    if frac = 0 then .ok res
    else do
      let (lines, res) ← openLines env key req.family i l.geometric thr factors res
      if lines = [] then return res
      else do
        let muIn ← env.mu i rd.energy
        let p ← vget rd.incident i
        let lines := lines.map (fun e => (e.1, primaryOf env l muIn p.1 frac e.2))
        let cs ← (if o.secondary > 0 then
          secondaryLoop env rd req.element thr i l muIn p.1 frac lines 0 env.layers.length else .ok [])
        let s := cs.foldl (addContribution key i) (lines, res)
        deposit env key i massFraction s.1 s.2

/-- fisx_multilayer.cpp:446, the loop over the layers. -/
def cellLoop (env : Env K) (o : Options K) (rd : RayData K) (req : Request) (thr : K)
    (factors : SMap Str (Factor K)) : Nat → List (LayerData K) → Result K → Outcome (Result K)
  | _, [], res => .ok res
  | i, l :: rest, res => do
    let res ← cell env o rd req thr factors i l res
    cellLoop env o rd req thr factors (i + 1) rest res

/-- fisx_multilayer.cpp:422-445: the threshold of the request with index `n`, computed for the first ray only. -/
def thresholdOf (env : Env K) (req : Request) (n : Nat) (thrs : List K) : Outcome (K × List K) :=
  if req.family = "" then .throw .runtimeError
  else match thrs[n]? with
    | some t => .ok (t, thrs)
    | none => do
      let t ← env.threshold req.element (String.ofList ((actualFamily req.family).toList.take 1))
      return (t, thrs ++ [t])

/-- fisx_multilayer.cpp:420-1091: the loop over the requests, from index `n` on. -/
def requestLoop (env : Env K) (o : Options K) (rd : RayData K) : Nat → List (Outcome Request) → List K → Result K →
    Outcome (List K × Result K)
  | _, [], thrs, res => .ok (thrs, res)
  | n, q :: rest, thrs, res => do
    let req ← q
    let (thr, thrs) ← thresholdOf env req n thrs
    if thr > rd.energy then requestLoop env o rd (n + 1) rest thrs res
    else do
      let factors ← env.excite req.element rd.energy rd.weight
      let res ← cellLoop env o rd req thr factors 0 env.layers res
      requestLoop env o rd (n + 1) rest thrs res

/-- fisx_multilayer.cpp:164-174: the lowest threshold, negative as long as none is known. -/
def minimumThreshold (thrs : List K) (m : K) : K :=
  if m < 0 then thrs.foldl (fun m t => if t < m ∨ m < 0 then t else m) m else m

/-- fisx_multilayer.cpp:159-1092: the loop over the rays, given in the order in which they are treated (from the last
to the first). -/
def rayLoop (env : Env K) (o : Options K) (reqs : List (Outcome Request)) : List (K × K) → List K → K → Result K →
    Outcome (Result K)
  | [], _, _, res => .ok res
  | (e, w) :: rest, thrs, m, res =>
    let m := minimumThreshold thrs m
    if e < m then rayLoop env o reqs rest thrs m res
    else do
      let rd ← rayData env o m e w
      let (thrs, res) ← requestLoop env o rd 0 reqs thrs res
      rayLoop env o reqs rest thrs m res

/-! ### Tertiary excitation -/

/-- fisx_multilayer.cpp:1132-1137, 1160-1165. -/
def factorFirst (l : Leaf K) : K := if l.primary > 0 then (l.primary + l.secondary) / l.primary else 1

/-- `it->first.find("esc") != npos`. -/
def hasEsc : Str → Bool
  | [] => false
  | c :: t => ("esc".toList).isPrefixOf (c :: t) || hasEsc t

/-- fisx_multilayer.cpp:1117-1153: the lines of a layer that excite others; the loop ends at the first line of an element
with a low mass fraction. -/
def keysLoop (ele : Str) (i : Nat) : List (Str × Leaf K) → SMap Str K → SMap Str K
  | [], ks => ks
  | (t, l) :: rest, ks =>
    if hasEsc t then keysLoop ele i rest ks
    else if l.massFraction < 5 / 1000 then ks
    else if factorFirst l < 101 / 100 then keysLoop ele i rest ks
    else keysLoop ele i rest (ks.insert (ele ++ ' ' :: (t ++ ' ' :: twoDigits i)) (factorFirst l))

/-- fisx_multilayer.cpp:1115: the loop `iLayer < size()` with `operator[]`, which creates the layers that are missing
(every layer below the last one). `fuel` bounds the number of iterations, see `fillLayers`. -/
def fillLoop {V : Type} : Nat → Nat → SMap Nat (SMap Str V) → SMap Nat (SMap Str V)
  | 0, _, m => m
  | fuel + 1, i, m =>
    if i < m.length then fillLoop fuel (i + 1) (if m.mem i then m else m.insert i []) else m

/-- The loop of L1115 ends at the latest after the highest layer. -/
def fillLayers {V : Type} (m : SMap Nat (SMap Str V)) : SMap Nat (SMap Str V) :=
  fillLoop (m.foldl (fun a e => max a e.1) 0 + 2) 0 m

/-- fisx_multilayer.cpp:1170-1176: the tertiary excitation of an escape peak, from the one of its line. -/
def escapeTertiary (lines : SMap Str (Leaf K)) (t : Str) (l : Leaf K) : K :=
  let parent := (lines.find? (t.takeWhile (fun c => c ≠ ' '))).getD Leaf.zero
  (l.primary + l.secondary) * (parent.tertiary / (parent.primary + parent.secondary))

/-- fisx_multilayer.cpp:1179-1187: the sum over the contributions of the lines that are excited themselves. -/
def lineTertiary (ks : SMap Str K) (l : Leaf K) : K :=
  (ks.map (fun e => match l.contrib.find? e.1 with | some v => v * (e.2 - 1) | none => 0)).sum

/-- fisx_multilayer.cpp:1157-1196: one line. `lines` are the lines of the layer with those before this one updated. -/
def tertiaryOf (ks : SMap Str K) (lines : SMap Str (Leaf K)) (t : Str) (l : Leaf K) : Leaf K :=
  if factorFirst l < 101 / 100 then { l with tertiary := 0 }
  else
    let v := if hasEsc t then escapeTertiary lines t l else lineTertiary ks l
    { l with tertiary := v, rate := l.rate * ((v + l.primary + l.secondary) / (l.primary + l.secondary)) }

/-- fisx_multilayer.cpp:1157-1196, the loop over the lines of a layer, in the order of the map. Reading a parent that
does not exist creates an empty entry in the code, which is left out (there is always one, see `C45_closed_form`). -/
def tertiaryLoop (ks : SMap Str K) : List (Str × Leaf K) → SMap Str (Leaf K) → SMap Str (Leaf K)
  | [], lines => lines
  | (t, l) :: rest, lines => tertiaryLoop ks rest (lines.insert t (tertiaryOf ks lines t l))

/-- fisx_multilayer.cpp:1095-1208. -/
def tertiary (r : Result K) : Result K :=
  let r := r.map (fun e => (e.1, fillLayers e.2))
  let ks := r.foldl (fun ks e => e.2.foldl (fun ks p =>
    keysLoop (e.1.toList.takeWhile (fun c => c ≠ ' ')) p.1 p.2 ks) ks) []
  r.map (fun e => (e.1, e.2.map (fun p => (p.1, tertiaryLoop ks p.2 p.2))))

/-- fisx_multilayer.cpp:159-1213: the calculation for the rays behind the filters, in the order of the beam. -/
def calculate (env : Env K) (o : Options K) (reqs : List (Outcome Request)) (rays : List (K × K)) :
    Outcome (Result K) := do
  let r ← rayLoop env o reqs rays.reverse [] (-1) []
  return if o.secondary > 1 then tertiary r else r

/-- fisx_multilayer.cpp:424-430: the request with index `n` of the three vectors; a single layer stands for all. -/
def requestAt (element : String) (families : List String) (layers : List Int) (n : Nat) : Outcome Request := do
  let f ← vget families n
  let l ← (if layers.length > 1 then vget layers n else vget layers 0)
  return { element := element, family := f, layer := l }

/-- fisx_multilayer.cpp:40-50: the requests of the vectors, from index `n` on. -/
def requestsOf (families : List String) (layers : List Int) : Nat → List String → List (Outcome Request)
  | _, [] => []
  | n, e :: rest => requestAt e families layers n :: requestsOf families layers (n + 1) rest

end Multilayer
end Fisx
