import Verif.PythonShell
import Verif.CacheSize
import Verif.Install

/-!
# PyElements: the library of elements in Python (C190)

/repo/python/cython/PyElements.pyx and Elements.pxd. The interface is the one of Python 3. The methods that take coefficients at given energies
and excitation factors are in `Verif.Python`.

A call is a value of `Method N D K`: `N` is the type of the names, `D` that of dictionaries of names and numbers. In C++ these are
`String` and `SMap String K`; in Python `Text` (a `str` or a `bytes` object) and a list of items in the order of the dictionary.
-/

set_option linter.unusedSectionVars false

namespace Fisx
namespace Python

/-- The calls (PyElements.pyx:126-499). Flags are 0 or 1, energies are lists of numbers, materials are not `None`. -/
inductive Method (N D K : Type)
  | getElementNames
  | getAtomicMass (element : N)
  | getAtomicNumber (element : N)
  | getDensity (element : N)
  | getLongName (element : N)
  | getColumn (element : N)
  | getMaterialNames
  | getComposition (name : N)
  | addMaterial (material : Material K) (errorOnReplace : Bool)
  | removeMaterials
  | setShellConstantsFile (mainShell file : N)
  | getShellConstantsFile (mainShell : N)
  | setShellRadiativeTransitionsFile (mainShell file : N)
  | getShellRadiativeTransitionsFile (mainShell : N)
  | getShellNonradiativeTransitionsFile (mainShell : N)
  | setMassAttenuationCoefficients (element : N) (energies photo coherent compton pair : List K)
  | setMassAttenuationCoefficientsFile (file : N)
  | getPeakFamilies (name : N) (energy : K)
  | getPeakFamiliesList (names : List N) (energy : K)
  | getBindingEnergies (element : N)
  | getEscape (composition : D) (energy energyThreshold intensityThreshold : K) (nThreshold : Int) (alphaIn thickness : K)
  | updateEscapeCache (composition : D) (energies : List K) (energyThreshold intensityThreshold : K) (nThreshold : Int)
      (alphaIn thickness : K)
  | getShellConstants (element subshell : N)
  | getEmittedXRayLines (element : N) (energy : K)
  | getRadiativeTransitions (element subshell : N)
  | getNonradiativeTransitions (element subshell : N)
  | setElementCascadeCacheEnabled (element : N) (flag : Bool)
  | emptyElementCascadeCache (element : N)
  | fillCache (element : N) (energies : List K)
  | updateCache (element : N) (energies : List K)
  | setCacheEnabled (element : N) (flag : Bool)
  | setEscapeCacheEnabled (flag : Bool)
  | clearCache (element : N)
  | isCacheEnabled (element : N)
  | isEscapeCacheEnabled
  | getCacheSize (element : N)
  | getInitialPhotoelectricVacancyDistribution (element : N) (energy : K)
  | getCascadeModifiedVacancyDistribution (element : N) (distribution : D)
  | getXRayLinesFromVacancyDistribution (element : N) (distribution : D) (cascade useFluorescenceYield : Bool)

/-- The same call with other types of names and dictionaries. -/
def Method.map {N N' D D' K : Type} (f : N → N') (g : D → D') : Method N D K → Method N' D' K
  | .getElementNames => .getElementNames
  | .getAtomicMass n => .getAtomicMass (f n)
  | .getAtomicNumber n => .getAtomicNumber (f n)
  | .getDensity n => .getDensity (f n)
  | .getLongName n => .getLongName (f n)
  | .getColumn n => .getColumn (f n)
  | .getMaterialNames => .getMaterialNames
  | .getComposition n => .getComposition (f n)
  | .addMaterial m b => .addMaterial m b
  | .removeMaterials => .removeMaterials
  | .setShellConstantsFile m n => .setShellConstantsFile (f m) (f n)
  | .getShellConstantsFile m => .getShellConstantsFile (f m)
  | .setShellRadiativeTransitionsFile m n => .setShellRadiativeTransitionsFile (f m) (f n)
  | .getShellRadiativeTransitionsFile m => .getShellRadiativeTransitionsFile (f m)
  | .getShellNonradiativeTransitionsFile m => .getShellNonradiativeTransitionsFile (f m)
  | .setMassAttenuationCoefficients n e p co cm pa => .setMassAttenuationCoefficients (f n) e p co cm pa
  | .setMassAttenuationCoefficientsFile n => .setMassAttenuationCoefficientsFile (f n)
  | .getPeakFamilies n e => .getPeakFamilies (f n) e
  | .getPeakFamiliesList l e => .getPeakFamiliesList (l.map f) e
  | .getBindingEnergies n => .getBindingEnergies (f n)
  | .getEscape c e et it nt a t => .getEscape (g c) e et it nt a t
  | .updateEscapeCache c es et it nt a t => .updateEscapeCache (g c) es et it nt a t
  | .getShellConstants n s => .getShellConstants (f n) (f s)
  | .getEmittedXRayLines n e => .getEmittedXRayLines (f n) e
  | .getRadiativeTransitions n s => .getRadiativeTransitions (f n) (f s)
  | .getNonradiativeTransitions n s => .getNonradiativeTransitions (f n) (f s)
  | .setElementCascadeCacheEnabled n b => .setElementCascadeCacheEnabled (f n) b
  | .emptyElementCascadeCache n => .emptyElementCascadeCache (f n)
  | .fillCache n es => .fillCache (f n) es
  | .updateCache n es => .updateCache (f n) es
  | .setCacheEnabled n b => .setCacheEnabled (f n) b
  | .setEscapeCacheEnabled b => .setEscapeCacheEnabled b
  | .clearCache n => .clearCache (f n)
  | .isCacheEnabled n => .isCacheEnabled (f n)
  | .isEscapeCacheEnabled => .isEscapeCacheEnabled
  | .getCacheSize n => .getCacheSize (f n)
  | .getInitialPhotoelectricVacancyDistribution n e => .getInitialPhotoelectricVacancyDistribution (f n) e
  | .getCascadeModifiedVacancyDistribution n d => .getCascadeModifiedVacancyDistribution (f n) (g d)
  | .getXRayLinesFromVacancyDistribution n d c u => .getXRayLinesFromVacancyDistribution (f n) (g d) c u

/-- What a call gives back: nothing, a number, names, a map or a list of pairs, a map of maps. -/
inductive Answer (N K : Type)
  | nothing
  | real (x : K)
  | int (n : Int)
  | name (n : N)
  | names (l : List N)
  | table (m : List (N × K))
  | nested (m : List (N × List (N × K)))
deriving DecidableEq, Repr

/-- The same answer with other names. -/
def Answer.map {N N' K : Type} (f : N → N') : Answer N K → Answer N' K
  | .nothing => .nothing
  | .real x => .real x
  | .int n => .int n
  | .name n => .name (f n)
  | .names l => .names (l.map f)
  | .table m => .table (m.map (fun p => (f p.1, p.2)))
  | .nested m => .nested (m.map (fun p => (f p.1, p.2.map (fun q => (f q.1, q.2)))))

section elements

variable {K : Type} [Field K] [LinearOrder K] [IsStrictOrderedRing K] [Trans K] [Trig K]

/-! ### The methods of C++ -/

/-- What the calls depend on: the parser of formulas, the depth of the stack, `std::sort`, the conversion of texts to numbers and the
files. -/
structure World (K : Type) where
  pf : String → Outcome (SMap String K)
  fuel : Nat
  srt : List (String × K) → List (String × K)
  strtod : Str → K
  fs : Init.Files

/-- The names of a map, as texts. -/
def named {V : Type} (m : SMap Str V) : List (String × V) := m.map (fun p => (String.ofList p.1, p.2))

/-- A map of names as the maps of an element have them. -/
def unnamed (m : SMap String K) : SMap Str K := SMap.ofList (m.map (fun p => (p.1.toList, p.2)))

/-- The two entries of a line (fisx_element.cpp:1300-1440). -/
def lineTable (l : Line K) : List (String × K) := [("energy", l.energy), ("rate", l.rate)]

/-- A query: the library stays as it is. -/
def asks {α σ : Type} (o : Outcome α) (s : σ) : Outcome α × σ := (o, s)

/-- fisx_elements.h, fisx_elements.cpp: a call in C++, on the library `d`. -/
def cxx (w : World K) (d : Init.Database K) : Method String (SMap String K) K → Outcome (Answer String K) × Init.Database K
  | .getElementNames => asks (.ok (.names d.lib.getElementNames)) d
  | .getAtomicMass n => asks ((Init.getAtomicMass d n).bind (fun x => .ok (.real x))) d
  | .getAtomicNumber n => asks ((Init.getAtomicNumber d n).bind (fun x => .ok (.int x))) d
  | .getDensity n => asks ((Init.getDensity d n).bind (fun x => .ok (.real x))) d
  | .getLongName n => asks ((Init.getLongName d n).bind (fun x => .ok (.name x))) d
  | .getColumn n => asks ((Init.getColumn d n).bind (fun x => .ok (.int x))) d
  | .getMaterialNames => asks (.ok (.names d.lib.getMaterialNames)) d
  | .getComposition n => asks ((d.lib.comp w.pf w.fuel n).bind (fun m => .ok (.table m))) d
  | .addMaterial m b => library d (d.lib.addMaterialObject m b)
  | .removeMaterials => library d (.ok (), d.lib.removeMaterials)
  | .setShellConstantsFile m f => loaded d (Loader.load .constants w.strtod ⟨d.lib.elements, d.files⟩ m f (w.fs f))
  | .getShellConstantsFile m => asks ((Loader.fileOf ⟨d.lib.elements, d.files⟩ .constants m).bind (fun x => .ok (.name x))) d
  | .setShellRadiativeTransitionsFile m f => loaded d (Loader.load .radiative w.strtod ⟨d.lib.elements, d.files⟩ m f (w.fs f))
  | .getShellRadiativeTransitionsFile m =>
    asks ((Loader.fileOf ⟨d.lib.elements, d.files⟩ .radiative m).bind (fun x => .ok (.name x))) d
  | .getShellNonradiativeTransitionsFile m =>
    asks ((Loader.fileOf ⟨d.lib.elements, d.files⟩ .nonradiative m).bind (fun x => .ok (.name x))) d
  | .setMassAttenuationCoefficients n e p co cm pa => library d (d.lib.setMu d.epdl n e p co cm pa)
  | .setMassAttenuationCoefficientsFile f => library d (d.lib.setMuFile d.epdl w.strtod (w.fs f))
  | .getPeakFamilies n e => asks ((d.lib.peakFamiliesOf w.pf w.srt w.fuel n e).bind (fun m => .ok (.table m))) d
  | .getPeakFamiliesList l e => asks ((d.lib.peakFamilies w.srt l e).bind (fun m => .ok (.table m))) d
  | .getBindingEnergies n => asks ((Init.getBindingEnergies d n).bind (fun m => .ok (.table (named m)))) d
  | .getEscape c e et it nt a t =>
    asks ((d.lib.getEscape w.pf w.fuel ⟨c, et, it, nt, a, t⟩ e).bind
      (fun m => .ok (.nested (m.map (fun p => (p.1, lineTable p.2)))))) d
  | .updateEscapeCache c es et it nt a t => library d (d.lib.updateEscapeCache w.pf w.fuel ⟨c, et, it, nt, a, t⟩ es)
  | .getShellConstants n s => asks ((Init.getShellConstants d n s.toList).bind (fun m => .ok (.table (named m)))) d
  | .getEmittedXRayLines n e =>
    asks ((d.lib.getElement n).bind (fun el => (el.data.getEmittedXRayLines e).bind (fun m => .ok (.table (named m))))) d
  | .getRadiativeTransitions n s => asks ((Init.getRadiativeTransitions d n s.toList).bind (fun m => .ok (.table (named m)))) d
  | .getNonradiativeTransitions n s =>
    asks ((Init.getNonradiativeTransitions d n s.toList).bind (fun m => .ok (.table (named m)))) d
  | .setElementCascadeCacheEnabled n b => library d (d.lib.onElement n (.setCascadeCacheEnabled b))
  | .emptyElementCascadeCache n => library d (d.lib.onElement n .emptyCascadeCache)
  | .fillCache n es => library d (d.lib.onElement n (.fillCache es))
  | .updateCache n es => library d (d.lib.onElement n (.updateCache es))
  | .setCacheEnabled n b => library d (d.lib.onElement n (.setCacheEnabled b))
  | .setEscapeCacheEnabled b => library d (.ok (), { d.lib with escapeOn := b })
  | .clearCache n => library d (d.lib.onElement n .clearCache)
  | .isCacheEnabled n => asks ((d.lib.isCacheEnabled n).bind (fun x => .ok (.int x))) d
  | .isEscapeCacheEnabled => asks (.ok (.int (if d.lib.escapeOn then 1 else 0))) d
  | .getCacheSize n => asks ((d.lib.getCacheSize n).bind (fun x => .ok (.int x))) d
  | .getInitialPhotoelectricVacancyDistribution n e =>
    asks ((d.lib.getElement n).bind (fun el => (el.data.getInitialVacancies e).bind (fun m => .ok (.table (named m))))) d
  | .getCascadeModifiedVacancyDistribution n v =>
    asks ((d.lib.getElement n).bind (fun el => (el.data.getCascade (unnamed v)).bind (fun m => .ok (.table (named m))))) d
  | .getXRayLinesFromVacancyDistribution n v c u =>
    asks ((d.lib.getElement n).bind (fun el => (el.data.getLines (unnamed v) c u).bind
      (fun m => .ok (.nested ((named m).map (fun p => (p.1, lineTable p.2))))))) d
where
  /-- A call that changes the library of C++. -/
  library (d : Init.Database K) (r : Outcome Unit × Library K) : Outcome (Answer String K) × Init.Database K :=
    (r.1.bind (fun _ => .ok .nothing), { d with lib := r.2 })
  /-- A call that loads a file of shell data. -/
  loaded (d : Init.Database K) (r : Outcome Unit × Loader.State K) : Outcome (Answer String K) × Init.Database K :=
    (r.1.bind (fun _ => .ok .nothing), { d with lib := { d.lib with elements := r.2.elements }, files := r.2.files })

/-- A sequence of calls in C++; the caller catches exceptions and carries on. -/
def cxxRun (w : World K) (d : Init.Database K) : List (Method String (SMap String K) K) →
    List (Outcome (Answer String K)) × Init.Database K
  | [] => ([], d)
  | c :: cs => ((cxx w d c).1 :: (cxxRun w (cxx w d c).2 cs).1, (cxxRun w (cxx w d c).2 cs).2)

/-! ### The methods of Python -/

/-- A call of C++ declared with `except +` (Elements.pxd:37-183), whose answer comes back with names as `bytes`. The four methods declared
without it (getElementNames, getMaterialNames, removeMaterials) do not throw. -/
def through (w : World K) (d : Init.Database K) (c : Method String (SMap String K) K) (f : Answer Text K → Result (Answer Text K)) :
    Result (Answer Text K) × Init.Database K :=
  ((guarded (cxx w d c).1).bind (fun a => f (a.map .bytes)), (cxx w d c).2)

/-- A conversion before the call. -/
def pre {α : Type} (x : Result α) (d : Init.Database K) (f : α → Result (Answer Text K) × Init.Database K) :
    Result (Answer Text K) × Init.Database K :=
  match x with
  | .value a => f a
  | .raises e => (.raises e, d)
  | .aborts e => (.aborts e, d)
  | .ub u => (.ub u, d)
  | .hangs => (.hangs, d)

/-- No conversion after the call. -/
def plain (a : Answer Text K) : Result (Answer Text K) := .value a

/-- FisxCythonTools.py:88-90, `toStringList`. -/
def afterList : Answer Text K → Result (Answer Text K)
  | .names l => .value (.names (l.map toStr))
  | _ => .raises .typeError

/-- `toString`. -/
def afterName : Answer Text K → Result (Answer Text K)
  | .name n => .value (.name (toStr n))
  | a => .value a

/-- `toStringKeys` of a map. -/
def afterKeys : Answer Text K → Result (Answer Text K)
  | .table m => (toStringKeys (.dict m)).bind (fun l => .value (.table l))
  | _ => .raises .attributeError

/-- PyElements.pyx:376-381, FisxCythonTools.py:78-82: the keys of a map of maps. -/
def afterNested : Answer Text K → Result (Answer Text K)
  | .nested m => .value (.nested (m.map (fun p => (toStr p.1, p.2.map (fun q => (toStr q.1, q.2))))))
  | _ => .raises .attributeError

/-- PyElements.pyx:327-328, 333-334: `sorted` by the second entry (stable), the names as `str`. -/
def afterFamilies : Answer Text K → Result (Answer Text K)
  | .table m => .value (.table ((m.mergeSort (fun a b => decide (a.2 ≤ b.2))).map (fun p => (toStr p.1, p.2))))
  | _ => .raises .typeError

/-- PyElements.pyx:126-499: a call in Python. -/
def py (w : World K) (d : Init.Database K) : Method Text (List (Text × K)) K → Result (Answer Text K) × Init.Database K
  | .getElementNames => through w d .getElementNames afterList
  | .getAtomicMass n => pre (stdString (toBytes n)) d (fun n => through w d (.getAtomicMass n) plain)
  | .getAtomicNumber n => pre (stdString (toBytes n)) d (fun n => through w d (.getAtomicNumber n) plain)
  | .getDensity n => pre (stdString (toBytes n)) d (fun n => through w d (.getDensity n) plain)
  | .getLongName n => pre (stdString (toBytes n)) d (fun n => through w d (.getLongName n) afterName)
  | .getColumn n => pre (stdString (toBytes n)) d (fun n => through w d (.getColumn n) plain)
  | .getMaterialNames => through w d .getMaterialNames afterList
  | .getComposition n => pre (stdString (toBytes n)) d (fun n => through w d (.getComposition n) afterKeys)
  | .addMaterial m b => through w d (.addMaterial m b) plain
  | .removeMaterials => through w d .removeMaterials plain
  | .setShellConstantsFile m f => pre (stdString (toBytes m)) d (fun m => pre (stdString (toBytes f)) d (fun f =>
      through w d (.setShellConstantsFile m f) plain))
  | .getShellConstantsFile m => pre (stdString (toBytes m)) d (fun m => through w d (.getShellConstantsFile m) afterName)
  | .setShellRadiativeTransitionsFile m f => pre (stdString (toBytes m)) d (fun m => pre (stdString (toBytes f)) d (fun f =>
      through w d (.setShellRadiativeTransitionsFile m f) plain))
  | .getShellRadiativeTransitionsFile m =>
    pre (stdString (toBytes m)) d (fun m => through w d (.getShellRadiativeTransitionsFile m) afterName)
  | .getShellNonradiativeTransitionsFile m =>
    pre (stdString (toBytes m)) d (fun m => through w d (.getShellNonradiativeTransitionsFile m) afterName)
  -- PyElements.pyx:188-200: the argument is declared as `std::string`
  | .setMassAttenuationCoefficients n e p co cm pa =>
    pre (stdString n) d (fun n => through w d (.setMassAttenuationCoefficients n e p co cm pa) plain)
  | .setMassAttenuationCoefficientsFile f =>
    pre (stdString (toBytes f)) d (fun f => through w d (.setMassAttenuationCoefficientsFile f) plain)
  | .getPeakFamilies n e => pre (stdString (toBytes n)) d (fun n => through w d (.getPeakFamilies n e) afterFamilies)
  | .getPeakFamiliesList l e => pre (stdStrings (l.map some)) d (fun l => through w d (.getPeakFamiliesList l e) afterFamilies)
  | .getBindingEnergies n => pre (stdString (toBytes n)) d (fun n => through w d (.getBindingEnergies n) afterKeys)
  | .getEscape c e et it nt a t =>
    pre (stdMap (toBytesKeys c)) d (fun c => through w d (.getEscape c e et it nt a t) afterNested)
  | .updateEscapeCache c es et it nt a t =>
    pre (stdMap (toBytesKeys c)) d (fun c => through w d (.updateEscapeCache c es et it nt a t) plain)
  | .getShellConstants n s => pre (stdString (toBytes n)) d (fun n => pre (stdString (toBytes s)) d (fun s =>
      through w d (.getShellConstants n s) afterKeys))
  | .getEmittedXRayLines n e => pre (stdString (toBytes n)) d (fun n => through w d (.getEmittedXRayLines n e) afterKeys)
  | .getRadiativeTransitions n s => pre (stdString (toBytes n)) d (fun n => pre (stdString (toBytes s)) d (fun s =>
      through w d (.getRadiativeTransitions n s) afterKeys))
  | .getNonradiativeTransitions n s => pre (stdString (toBytes n)) d (fun n => pre (stdString (toBytes s)) d (fun s =>
      through w d (.getNonradiativeTransitions n s) afterKeys))
  | .setElementCascadeCacheEnabled n b =>
    pre (stdString (toBytes n)) d (fun n => through w d (.setElementCascadeCacheEnabled n b) plain)
  | .emptyElementCascadeCache n => pre (stdString (toBytes n)) d (fun n => through w d (.emptyElementCascadeCache n) plain)
  | .fillCache n es => pre (stdString (toBytes n)) d (fun n => through w d (.fillCache n es) plain)
  | .updateCache n es => pre (stdString (toBytes n)) d (fun n => through w d (.updateCache n es) plain)
  | .setCacheEnabled n b => pre (stdString (toBytes n)) d (fun n => through w d (.setCacheEnabled n b) plain)
  | .setEscapeCacheEnabled b => through w d (.setEscapeCacheEnabled b) plain
  | .clearCache n => pre (stdString (toBytes n)) d (fun n => through w d (.clearCache n) plain)
  | .isCacheEnabled n => pre (stdString (toBytes n)) d (fun n => through w d (.isCacheEnabled n) plain)
  | .isEscapeCacheEnabled => through w d .isEscapeCacheEnabled plain
  | .getCacheSize n => pre (stdString (toBytes n)) d (fun n => through w d (.getCacheSize n) plain)
  | .getInitialPhotoelectricVacancyDistribution n e =>
    pre (stdString (toBytes n)) d (fun n => through w d (.getInitialPhotoelectricVacancyDistribution n e) afterKeys)
  | .getCascadeModifiedVacancyDistribution n v => pre (stdString (toBytes n)) d (fun n => pre (stdMap (toBytesKeys v)) d (fun v =>
      through w d (.getCascadeModifiedVacancyDistribution n v) afterKeys))
  | .getXRayLinesFromVacancyDistribution n v c u =>
    pre (stdString (toBytes n)) d (fun n => pre (stdMap (toBytesKeys v)) d (fun v =>
      through w d (.getXRayLinesFromVacancyDistribution n v c u) afterNested))

/-- A sequence of calls in Python; the caller catches exceptions and carries on. -/
def pyRun (w : World K) (d : Init.Database K) : List (Method Text (List (Text × K)) K) →
    List (Result (Answer Text K)) × Init.Database K
  | [] => ([], d)
  | c :: cs => ((py w d c).1 :: (pyRun w (py w d c).2 cs).1, (pyRun w (py w d c).2 cs).2)

/-! ### C190 -/

/-- The map that a dictionary of names stands for: of two spellings of a name (`str` and `bytes`) the last one in the dictionary
counts. -/
def dictOf (d : List (Text × K)) : SMap String K := SMap.ofList (d.map (fun p => (p.1.get, p.2)))

/-- The call of C++ with the same names. -/
def Method.plainNames (c : Method Text (List (Text × K)) K) : Method String (SMap String K) K := c.map Text.get dictOf

/-- What Python shows for an answer of C++: the exception of Python, or the answer with all names as `str`. -/
def shown (o : Outcome (Answer String K)) : Result (Answer Text K) := (guarded o).bind (fun a => .value (a.map .str))

/-- The one call that takes `bytes` only: its element is not given as `str`. -/
def Method.Accepted : Method Text (List (Text × K)) K → Prop
  | .setMassAttenuationCoefficients n _ _ _ _ _ => ∃ s, n = .bytes s
  | _ => True

theorem stdMap_find : ∀ d : List (Text × K), ∃ m, stdMap (toBytesKeys d) = .value m ∧ SMap.Sorted m ∧
    ∀ (acc : SMap String K) (k : String), SMap.find? ((d.map (fun p => (p.1.get, p.2))).foldl
      (fun m e => SMap.insert m e.1 e.2) acc) k = (m.find? k).or (SMap.find? acc k)
  | [] => ⟨[], rfl, SMap.sorted_nil, fun acc k => by simp [SMap.find?]⟩
  | (t, x) :: rest => by
    obtain ⟨m, h1, h2, h3⟩ := stdMap_find rest
    refine ⟨if m.mem t.get then m else m.insert t.get x, ?_, ?_, fun acc k => ?_⟩
    · have h0 : toBytesKeys ((t, x) :: rest) = (toBytes t, x) :: toBytesKeys rest := rfl
      rw [h0]
      simp only [stdMap, do_bind, stdString_toBytes, value_bind]
      rw [h1]
      rfl
    · split
      · exact h2
      · exact SMap.insert_sorted h2 _ _
    · rw [List.map_cons, List.foldl_cons, h3]
      cases hm : m.find? t.get with
      | some v =>
        have : m.mem t.get = true := by simp [SMap.mem, hm]
        rw [if_pos this]
        by_cases hk : k = t.get
        · subst hk; simp [hm]
        · have hk' : ¬ t.get = k := fun h => hk h.symm
          simp [SMap.find?_insert, hk']
      | none =>
        have : ¬ m.mem t.get = true := by simp [SMap.mem, hm]
        rw [if_neg this]
        by_cases hk : k = t.get
        · subst hk; simp [hm]
        · have hk' : ¬ t.get = k := fun h => hk h.symm
          simp [SMap.find?_insert, hk']

theorem stdMap_dictOf (d : List (Text × K)) : stdMap (toBytesKeys d) = .value (dictOf d) := by
  obtain ⟨m, h1, h2, h3⟩ := stdMap_find d
  rw [h1]
  congr 1
  refine SMap.ext_find? h2 (SMap.ofList_sorted _) (fun k => ?_)
  have := h3 [] k
  unfold dictOf SMap.ofList
  rw [this]
  simp [SMap.find?]

theorem Answer.map_map {N N' N'' : Type} (f : N → N') (g : N' → N'') (a : Answer N K) :
    (a.map f).map g = a.map (g ∘ f) := by
  cases a <;> simp [Answer.map, Function.comp_def]

/-- What the conversion after a call must do: the names become `str`. -/
def Decodes (f : Answer Text K → Result (Answer Text K)) (a : Answer String K) : Prop := f (a.map .bytes) = .value (a.map .str)

theorem through_shown (w : World K) (d : Init.Database K) (c : Method String (SMap String K) K)
    (f : Answer Text K → Result (Answer Text K)) (h : ∀ a, (cxx w d c).1 = .ok a → Decodes f a) :
    through w d c f = (shown (cxx w d c).1, (cxx w d c).2) := by
  unfold through shown
  cases hc : (cxx w d c).1 with
  | ok a => simp only [guarded, value_bind]; rw [h a hc]
  | throw e => rfl
  | ub u => rfl
  | diverge => rfl

theorem bind_form {α β : Type} {o : Outcome α} {f : α → β} {b : β} (h : o.bind (fun x => .ok (f x)) = .ok b) :
    ∃ x, o = .ok x ∧ b = f x := by
  cases o with
  | ok x => exact ⟨x, rfl, by cases h; rfl⟩
  | throw e => cases h
  | ub u => cases h
  | diverge => cases h

theorem bind2_form {γ α β : Type} {o : Outcome γ} {g : γ → Outcome α} {f : α → β} {b : β}
    (h : (o.bind (fun z => (g z).bind (fun x => .ok (f x)))) = .ok b) : ∃ x, b = f x := by
  cases o with
  | ok z => obtain ⟨x, _, h⟩ := bind_form h; exact ⟨x, h⟩
  | throw e => cases h
  | ub u => cases h
  | diverge => cases h

theorem decodes_table (m : List (String × K)) : Decodes afterKeys (.table m) := by
  simp [Decodes, afterKeys, Answer.map, toStringKeys, value_bind, toStr, Function.comp_def]

theorem decodes_nested (m : List (String × List (String × K))) : Decodes afterNested (.nested m) := by
  simp [Decodes, afterNested, Answer.map, toStr, Function.comp_def]

theorem decodes_name (n : String) : Decodes (K := K) afterName (.name n) := rfl

theorem decodes_families (m : List (String × K)) (h : m.Pairwise (fun a b => a.2 ≤ b.2)) : Decodes afterFamilies (.table m) := by
  have h' : (m.map (fun p => (Text.bytes p.1, p.2))).mergeSort (fun a b => decide (a.2 ≤ b.2)) =
      m.map (fun p => (Text.bytes p.1, p.2)) := by
    apply List.mergeSort_of_pairwise
    rw [List.pairwise_map]
    exact h.imp (fun h => by simpa using h)
  simp [Decodes, afterFamilies, Answer.map, toStr, h', Function.comp_def]

theorem families_sorted (w : World K) (hw : ∀ l, (w.srt l).Pairwise (fun a b => a.2 ≤ b.2)) {L : Library K} {names : List String} {e : K}
    {x : List (String × K)} (hx : L.peakFamilies w.srt names e = .ok x) : x.Pairwise (fun a b => a.2 ≤ b.2) := by
  obtain ⟨r, _, hx⟩ := Outcome.bind_eq_ok.1 hx
  cases hx
  exact hw r

/-- **C190** (partial) A call in Python with names as `str` or `bytes` does what the call of C++ with these names does: the library
becomes the same, the answer is the same with all its names as `str`, and an exception of C++ is the Python exception made of it. Not for
setMassAttenuationCoefficients with a `str`. -/
theorem C190_call_partial (w : World K) (hw : ∀ l, (w.srt l).Pairwise (fun a b => a.2 ≤ b.2)) (d : Init.Database K)
    (c : Method Text (List (Text × K)) K) (hc : c.Accepted) :
    py w d c = (shown (cxx w d c.plainNames).1, (cxx w d c.plainNames).2) := by
  cases c
  case setMassAttenuationCoefficients n e p co cm pa =>
    obtain ⟨s, rfl⟩ := hc
    refine through_shown _ _ _ _ (fun a ha => ?_)
    obtain ⟨x, _, rfl⟩ := bind_form ha
    rfl
  all_goals
    simp only [py, Method.plainNames, Method.map, stdString_toBytes, stdStrings_some, stdMap_dictOf, pre]
    refine through_shown _ _ _ _ (fun a ha => ?_)
  case getPeakFamilies n e =>
    obtain ⟨x, hx, rfl⟩ := bind_form ha
    refine decodes_families _ ?_
    obtain ⟨m, _, hx⟩ := Outcome.bind_eq_ok.1 hx
    split at hx
    · cases hx
    · exact families_sorted w hw hx
  case getPeakFamiliesList l e =>
    obtain ⟨x, hx, rfl⟩ := bind_form ha
    exact decodes_families _ (families_sorted w hw hx)
  all_goals first
    | (obtain ⟨x, _, rfl⟩ := bind_form ha
       first
        | exact decodes_table _
        | exact decodes_nested _
        | exact decodes_name _
        | rfl)
    | (obtain ⟨x, rfl⟩ := bind2_form ha
       first
        | exact decodes_table _
        | exact decodes_nested _)
    | (cases ha
       simp [Decodes, plain, afterList, Answer.map, toStr, Function.comp_def])

/-- **C190** (partial) A sequence of calls of any length in Python, with names as `str` or `bytes`, in which exceptions are caught: every
call has the answer, or the exception, of the same sequence in C++, and the libraries at the end are the same. -/
theorem C190_history_partial (w : World K) (hw : ∀ l, (w.srt l).Pairwise (fun a b => a.2 ≤ b.2)) :
    ∀ (cs : List (Method Text (List (Text × K)) K)) (d : Init.Database K), (∀ c ∈ cs, c.Accepted) →
      pyRun w d cs = ((cxxRun w d (cs.map Method.plainNames)).1.map shown, (cxxRun w d (cs.map Method.plainNames)).2)
  | [], d, _ => rfl
  | c :: cs, d, h => by
    have h1 := C190_call_partial w hw d c (h c List.mem_cons_self)
    have h2 := C190_history_partial w hw cs (cxx w d c.plainNames).2 (fun c hc => h c (List.mem_cons_of_mem _ hc))
    simp only [pyRun, List.map_cons, cxxRun]
    rw [h1]
    simp only []
    rw [h2]

/-- **C190** (partial) Two sequences of calls that differ in the spelling of names only (`str` or `bytes`) have the same answers and
leave the same library. -/
theorem C190_spelling_partial (w : World K) (hw : ∀ l, (w.srt l).Pairwise (fun a b => a.2 ≤ b.2)) (d : Init.Database K)
    (cs cs' : List (Method Text (List (Text × K)) K)) (h : ∀ c ∈ cs, c.Accepted) (h' : ∀ c ∈ cs', c.Accepted)
    (e : cs.map Method.plainNames = cs'.map Method.plainNames) : pyRun w d cs = pyRun w d cs' := by
  rw [C190_history_partial w hw cs d h, C190_history_partial w hw cs' d h', e]

/-- All names of an answer are `str`. -/
def Answer.AllStr : Answer Text K → Prop
  | .name n => ∃ s, n = .str s
  | .names l => ∀ n ∈ l, ∃ s, n = .str s
  | .table m => ∀ p ∈ m, ∃ s, p.1 = .str s
  | .nested m => ∀ p ∈ m, (∃ s, p.1 = .str s) ∧ ∀ q ∈ p.2, ∃ s, q.1 = .str s
  | _ => True

theorem shown_spec (o : Outcome (Answer String K)) : (∀ e, shown o ≠ .aborts e) ∧ ∀ a, shown o = .value a → a.AllStr := by
  cases o with
  | ok a =>
    refine ⟨fun e he => by simp [shown, guarded, value_bind] at he, fun b hb => ?_⟩
    simp only [shown, guarded, value_bind, Result.value.injEq] at hb
    subst hb
    cases a with
    | table m => exact fun p hp => by obtain ⟨q, _, rfl⟩ := List.mem_map.1 hp; exact ⟨_, rfl⟩
    | nested m =>
      intro p hp
      obtain ⟨q, _, rfl⟩ := List.mem_map.1 hp
      exact ⟨⟨_, rfl⟩, fun r hr => by obtain ⟨t, _, rfl⟩ := List.mem_map.1 hr; exact ⟨_, rfl⟩⟩
    | names l => exact fun p hp => by obtain ⟨q, _, rfl⟩ := List.mem_map.1 hp; exact ⟨_, rfl⟩
    | name n => exact ⟨_, rfl⟩
    | _ => trivial
  | throw e => exact ⟨fun e' he => (by cases he), fun b hb => (by cases hb)⟩
  | ub u => exact ⟨fun e' he => (by cases he), fun b hb => (by cases hb)⟩
  | diverge => exact ⟨fun e' he => (by cases he), fun b hb => (by cases hb)⟩

/-- **C190** No call, whatever its arguments and the state of the library, ends the process by an exception of C++, and every answer has
its names as `str`. -/
theorem C190_no_abort (w : World K) (hw : ∀ l, (w.srt l).Pairwise (fun a b => a.2 ≤ b.2)) (d : Init.Database K)
    (c : Method Text (List (Text × K)) K) :
    (∀ e, (py w d c).1 ≠ .aborts e) ∧ ∀ a, (py w d c).1 = .value a → a.AllStr := by
  by_cases hc : c.Accepted
  · rw [C190_call_partial w hw d c hc]
    exact shown_spec _
  · cases c
    case setMassAttenuationCoefficients n e p co cm pa =>
      cases n with
      | bytes s => exact absurd ⟨s, rfl⟩ hc
      | str s => exact ⟨fun e' he => (by cases he), fun b hb => (by cases hb)⟩
    all_goals exact absurd trivial hc

/-- **C190** A file of shell data loaded from Python is the one whose name the getter gives back, as `str`, and the other names stay. When
the call raises an exception all names stay. -/
theorem C190_files (w : World K) (hw : ∀ l, (w.srt l).Pairwise (fun a b => a.2 ≤ b.2)) (d : Init.Database K) (m f m' : Text) :
    let r := py w d (.setShellConstantsFile m f)
    let q := py w d (.setShellRadiativeTransitionsFile m f)
    (r.1 = .value .nothing → (py w r.2 (.getShellConstantsFile m)).1 = .value (.name (.str f.get))) ∧
    (q.1 = .value .nothing → (py w q.2 (.getShellRadiativeTransitionsFile m)).1 = .value (.name (.str f.get))) ∧
    ((r.1 ≠ .value .nothing ∨ m'.get ≠ m.get) →
      (py w r.2 (.getShellConstantsFile m')).1 = (py w d (.getShellConstantsFile m')).1) ∧
    ((q.1 ≠ .value .nothing ∨ m'.get ≠ m.get) →
      (py w q.2 (.getShellRadiativeTransitionsFile m')).1 = (py w d (.getShellRadiativeTransitionsFile m')).1) ∧
    (py w r.2 (.getShellRadiativeTransitionsFile m')).1 = (py w d (.getShellRadiativeTransitionsFile m')).1 ∧
    (py w q.2 (.getShellConstantsFile m')).1 = (py w d (.getShellConstantsFile m')).1 := by
  have key : ∀ kind : Loader.Kind, ∀ s : Loader.State K, ∀ n file : String, ∀ text,
      ((Loader.load kind w.strtod s n file text).1 = .ok () ∧ (Loader.load kind w.strtod s n file text).2.files =
          (fun k => if k = kind then (s.files k).insert n file else s.files k)) ∨
      ((Loader.load kind w.strtod s n file text).1 ≠ .ok () ∧ (Loader.load kind w.strtod s n file text).2.files = s.files) := by
    intro kind s n file text
    unfold Loader.load
    cases Loader.subshellsOf n with
    | none => exact .inr ⟨by simp, rfl⟩
    | some subs =>
      simp only []
      by_cases hN : Specfile.getNumberOfScans (Specfile.setFileName (Specfile.File.ofText text)) ≠ subs.length
      · rw [if_pos hN]
        exact .inr ⟨by simp, rfl⟩
      · rw [if_neg hN]
        generalize Loader.scansLoop kind w.strtod _ subs 0 s.elements = q
        rcases q with ⟨o, e⟩
        cases o with
        | ok u => exact .inl ⟨rfl, rfl⟩
        | throw x => exact .inr ⟨by simp, rfl⟩
        | ub x => exact .inr ⟨by simp, rfl⟩
        | diverge => exact .inr ⟨by simp, rfl⟩
  have hs : ∀ (d : Init.Database K) (q : Outcome Unit × Loader.State K), shown (cxx.loaded d q).1 = .value .nothing ↔ q.1 = .ok () := by
    intro d q
    unfold cxx.loaded
    rcases q with ⟨o, s⟩
    cases o <;> simp [shown, guarded, Outcome.bind, value_bind, Answer.map, Result.bind]
  simp only [C190_call_partial w hw _ _ (show Method.Accepted (.setShellConstantsFile m f) from trivial),
    C190_call_partial w hw _ _ (show Method.Accepted (.setShellRadiativeTransitionsFile m f) from trivial),
    C190_call_partial w hw _ _ (show Method.Accepted (.getShellConstantsFile m) from trivial),
    C190_call_partial w hw _ _ (show Method.Accepted (.getShellConstantsFile m') from trivial),
    C190_call_partial w hw _ _ (show Method.Accepted (.getShellRadiativeTransitionsFile m) from trivial),
    C190_call_partial w hw _ _ (show Method.Accepted (.getShellRadiativeTransitionsFile m') from trivial),
    Method.plainNames, Method.map, cxx, asks, hs, ne_eq]
  have k1 := key .constants ⟨d.lib.elements, d.files⟩ m.get f.get (w.fs f.get)
  have k2 := key .radiative ⟨d.lib.elements, d.files⟩ m.get f.get (w.fs f.get)
  generalize Loader.load .constants w.strtod ⟨d.lib.elements, d.files⟩ m.get f.get (w.fs f.get) = r at *
  generalize Loader.load .radiative w.strtod ⟨d.lib.elements, d.files⟩ m.get f.get (w.fs f.get) = q at *
  refine ⟨fun h => ?_, fun h => ?_, fun h => ?_, fun h => ?_, ?_, ?_⟩
  · rcases k1 with ⟨_, k⟩ | ⟨k, _⟩
    · simp [cxx.loaded, Loader.fileOf, k, shown, Outcome.bind, guarded, value_bind, Answer.map]
    · exact absurd h k
  · rcases k2 with ⟨_, k⟩ | ⟨k, _⟩
    · simp [cxx.loaded, Loader.fileOf, k, shown, Outcome.bind, guarded, value_bind, Answer.map]
    · exact absurd h k
  · rcases k1 with ⟨k0, k⟩ | ⟨_, k⟩
    · have hm : ¬ m.get = m'.get := fun e => h.elim (fun h => h k0) (fun h => h e.symm)
      simp [cxx.loaded, Loader.fileOf, k, hm]
    · simp [cxx.loaded, Loader.fileOf, k]
  · rcases k2 with ⟨k0, k⟩ | ⟨_, k⟩
    · have hm : ¬ m.get = m'.get := fun e => h.elim (fun h => h k0) (fun h => h e.symm)
      simp [cxx.loaded, Loader.fileOf, k, hm]
    · simp [cxx.loaded, Loader.fileOf, k]
  · rcases k1 with ⟨_, k⟩ | ⟨_, k⟩ <;> simp [cxx.loaded, Loader.fileOf, k]
  · rcases k2 with ⟨_, k⟩ | ⟨_, k⟩ <;> simp [cxx.loaded, Loader.fileOf, k]

/-- **C190** (violated) setMassAttenuationCoefficients refuses the name of every element given as `str`, whatever the table and the
library, also where C++ takes it and where the same name as `bytes` is taken; nothing changes. -/
theorem C190_set_violated (w : World K) (d : Init.Database K) (n : String) (e p co cm pa : List K) :
    py w d (.setMassAttenuationCoefficients (.str n) e p co cm pa) = (.raises .typeError, d) ∧
    py w d (.setMassAttenuationCoefficients (.bytes n) e p co cm pa) =
      (shown (cxx w d (.setMassAttenuationCoefficients n e p co cm pa)).1,
        (cxx w d (.setMassAttenuationCoefficients n e p co cm pa)).2) := by
  refine ⟨rfl, ?_⟩
  refine through_shown _ _ _ _ (fun a ha => ?_)
  obtain ⟨x, _, rfl⟩ := bind_form ha
  rfl

end elements

section example_

/-- A world without files. -/
noncomputable def emptyWorld : World ℝ :=
  { pf := fun _ => .ok [], fuel := 5, srt := fun l => l.mergeSort (fun a b => decide (a.2 ≤ b.2)), strtod := fun _ => 0, fs := fun _ => none }

/-- It sorts. -/
example : ∀ l, (emptyWorld.srt l).Pairwise (fun a b => a.2 ≤ b.2) := fun l => by
  have := List.pairwise_mergeSort (le := fun a b : String × ℝ => decide (a.2 ≤ b.2))
    (fun a b c h1 h2 => by simp only [decide_eq_true_eq] at *; exact h1.trans h2)
    (fun a b => by simp only [Bool.or_eq_true, decide_eq_true_eq]; exact le_total _ _) l
  exact this.imp (fun h => by simpa using h)

/-- A material is added twice: the second call raises `ValueError`; its name is given back as `str`; the cache of an unknown element is
refused; a file that does not exist is refused; after removeMaterials there is no material. -/
example (m : Material ℝ) (hm : m.name = "Steel") (epdl : EPDL97 ℝ) (key : EscapeKey ℝ) [Trans ℝ] [Trig ℝ] :
    (pyRun emptyWorld { lib := Library.empty false key, periodic := [], epdl := epdl, files := Init.noFiles }
      [.addMaterial m true, .addMaterial m true, .getMaterialNames, .isCacheEnabled (.str "Fe"),
        .setShellConstantsFile (.str "K") (.bytes "k.dat"), .getShellConstantsFile (.bytes "K"),
        .setMassAttenuationCoefficients (.str "Fe") [] [] [] [] [], .removeMaterials, .getMaterialNames]).1 =
      [.value .nothing, .raises .valueError, .value (.names [.str "Steel"]), .raises .valueError, .raises .ioError,
        .value (.name (.str "")), .raises .typeError, .value .nothing, .value (.names [])] := by
  obtain ⟨n, rest⟩ := m
  cases hm
  rfl

end example_

end Python
end Fisx
