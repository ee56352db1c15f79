import Verif.PythonCaches
import Verif.PythonShell
import Verif.VectorApi
import Verif.ElementEmission

/-!
# PyElement (C191)

The single element of Python (PyElement.pyx), with the interface of Python 3. Unlike the library of elements, it converts
only some of its names: the shells, not the labels and not the keys of the dictionaries. Its name is left out: no method
of PyElement reads it.
-/

set_option linter.unusedSectionVars false

namespace Fisx
namespace Python

variable {K : Type} [Field K] [LinearOrder K] [IsStrictOrderedRing K] [Trans K] [Trig K]

/-- PyElement.pyx:39-42: a new element; `z = 0` when it is not given. The name is taken over as it is. -/
def newElement (name : Text) (z : Option Int) : Result (Element K) := do
  let _ ← stdString (toBytes name)
  guarded (Element.mk? (z.getD 0))

/-- The conversion of a list to a `std::vector<std::string>` (python/cython/default/_fisx.cpp,
`__pyx_convert_vector_from_py_std_3a__3a_string`). -/
def rawStrings : List Text → Result (List String)
  | [] => .value []
  | t :: rest => do
    let s ← stdString t
    let l ← rawStrings rest
    return s :: l

/-- A call that changes an element. -/
inductive ElementCall (K : Type)
  | setAtomicNumber (z : Int)
  | setBindingEnergies (energies : List (Text × K))
  | setMassAttenuationCoefficients (energies photo coherent compton pair : List K)
  | setRadiativeTransitions (shell : Text) (labels : List Text) (values : List K)
  | setNonradiativeTransitions (shell : Text) (labels : List Text) (values : List K)
  | setShellConstants (shell : Text) (values : List (Text × K))

/-- The map of C++ from the one of the conversion. -/
def asMap {V : Type} (m : SMap String V) : SMap Str V := SMap.ofList (m.map (fun p => (p.1.toList, p.2)))

/-- PyElement.pyx:50-51, 56-58, 62-73, 93-96, 101-104, 109-111: one call. The arguments with a type are converted before the
shell. -/
def elementStep (e : Element K) : ElementCall K → Result Unit × Element K
  | .setAtomicNumber z => (guarded (e.setAtomicNumber z).1, (e.setAtomicNumber z).2)
  | .setBindingEnergies d => setElementBinding e d
  | .setMassAttenuationCoefficients en ph co cm pa =>
    let r := e.setMassAttenuationCoefficients en ph co cm pa
    (guarded r.1, r.2)
  | .setRadiativeTransitions sh labels values =>
    onState (rawStrings labels) e (fun ls => onState (stdString (toBytes sh)) e (fun s =>
      let r := e.setRadiative s.toList (ls.map String.toList) values
      (guarded r.1, r.2)))
  | .setNonradiativeTransitions sh labels values =>
    onState (rawStrings labels) e (fun ls => onState (stdString (toBytes sh)) e (fun s =>
      let r := e.setNonradiative s.toList (ls.map String.toList) values
      (guarded r.1, r.2)))
  | .setShellConstants sh d =>
    onState (stdMap d) e (fun m => onState (stdString (toBytes sh)) e (fun s =>
      let r := e.setShellConstants s.toList (asMap m)
      (guarded r.1, r.2)))

/-- A sequence of calls. -/
def elementRun (e : Element K) (calls : List (ElementCall K)) : Element K :=
  calls.foldl (fun e c => (elementStep e c).2) e

/-- PyElement.pyx:53-54. -/
def elementAtomicNumber (e : Element K) : Int := e.atomicNumber

/-- PyElement.pyx:98-99, `getRadiativeTransitions`. -/
def elementRadiative (e : Element K) (shell : Text) : Result (List (Text × K)) := do
  let n ← stdString (toBytes shell)
  let s ← guarded (Init.getShell e n.toList)
  return bytesDict s.radiative

/-- PyElement.pyx:106-107, `getNonradiativeTransitions`. -/
def elementNonradiative (e : Element K) (shell : Text) : Result (List (Text × K)) := do
  let n ← stdString (toBytes shell)
  let s ← guarded (Init.getShell e n.toList)
  return bytesDict s.nonradiative

/-- PyElement.pyx:113-114, `getShellConstants`. -/
def elementConstants (e : Element K) (shell : Text) : Result (List (Text × K)) := do
  let n ← stdString (toBytes shell)
  let s ← guarded (Init.getShell e n.toList)
  return bytesDict s.constants

/-- PyElement.pyx:75-91: the map of C++ behind the answer: the tables without an energy; a number is a list of one. -/
def elementMuMap (e : Element K) : Option (Arg K) → Result (SMap Str (List K))
  | none => .value (Init.coefficientTable e)
  | some (.one x) => guarded (e.getMus [x])
  | some (.many xs) => guarded (e.getMus xs)

/-- PyElement.pyx:75-91, `getMassAttenuationCoefficients`. -/
def elementMus (e : Element K) (energy : Option (Arg K)) : Result (List (Text × List K)) := do
  let m ← elementMuMap e energy
  return bytesDict m

/-- PyElement.pyx:119-122, `getXRayLinesFromVacancyDistribution`: with the cascade and the yields, the defaults of
fisx_element.h:296-298. -/
def elementLines (e : Element K) (vacancies : List (Text × K)) : Result (List (Text × List (Text × K))) := do
  let m ← stdMap vacancies
  let lines ← guarded (e.getLines (asMap m) true true)
  return lines.map (fun p =>
    (Text.bytes (String.ofList p.1), [(Text.bytes "energy", p.2.energy), (Text.bytes "rate", p.2.rate)]))

/-! ## Specification -/

/-- What a call says, in C++. -/
def ElementCall.op : ElementCall K → Element.Op K
  | .setAtomicNumber z => .setAtomicNumber z
  | .setBindingEnergies d => .setBindingEnergies (SMap.ofList (d.map (fun p => (p.1.get.toList, p.2))))
  | .setMassAttenuationCoefficients en ph co cm pa => .setMass en ph co cm pa
  | .setRadiativeTransitions sh ls vs => .setRadiative sh.get.toList (ls.map (fun t => t.get.toList)) vs
  | .setNonradiativeTransitions sh ls vs => .setNonradiative sh.get.toList (ls.map (fun t => t.get.toList)) vs
  | .setShellConstants sh d => .setShellConstants sh.get.toList (SMap.ofList (d.map (fun p => (p.1.get.toList, p.2))))

/-- The names of the call that are not the name of a shell. -/
def ElementCall.inner : ElementCall K → List Text
  | .setAtomicNumber _ => []
  | .setBindingEnergies d => d.map Prod.fst
  | .setMassAttenuationCoefficients _ _ _ _ _ => []
  | .setRadiativeTransitions _ ls _ => ls
  | .setNonradiativeTransitions _ ls _ => ls
  | .setShellConstants _ d => d.map Prod.fst

/-- The name is given as `bytes`. -/
def Text.IsBytes (t : Text) : Prop := ∃ n, t = .bytes n

/-! ## Proofs -/

theorem rawStrings_bytes : ∀ {l : List Text}, (∀ t ∈ l, t.IsBytes) → rawStrings l = .value (l.map Text.get)
  | [], _ => rfl
  | t :: rest, h => by
    obtain ⟨n, rfl⟩ := h t List.mem_cons_self
    simp only [rawStrings, do_bind, stdString, value_bind]
    rw [rawStrings_bytes (fun t ht => h t (List.mem_cons_of_mem _ ht))]
    rfl

theorem rawStrings_str : ∀ {l : List Text} {n : String}, Text.str n ∈ l → rawStrings l = .raises .typeError
  | t :: rest, n, h => by
    rcases List.mem_cons.1 h with rfl | h'
    · rfl
    · cases t with
      | str s => rfl
      | bytes s =>
        simp only [rawStrings, do_bind, stdString, value_bind]
        rw [rawStrings_str h']
        rfl

theorem insert_asList {V : Type} (m : SMap String V) (k : String) (v : V) :
    (SMap.insert m k v).map (fun p => (p.1.toList, p.2)) =
      SMap.insert (m.map (fun p => (p.1.toList, p.2))) k.toList v := by
  induction m with
  | nil => rfl
  | cons p m ih =>
    obtain ⟨k', v'⟩ := p
    have hlt : ∀ a b : String, a < b ↔ a.toList < b.toList := fun a b => String.lt_iff_toList_lt
    unfold SMap.insert
    simp only [List.map_cons]
    by_cases h : k < k'
    · rw [if_pos h, if_pos ((hlt _ _).1 h)]; rfl
    · rw [if_neg h, if_neg (fun h' => h ((hlt _ _).2 h'))]
      by_cases h2 : k' = k
      · rw [if_pos h2, if_pos (by rw [h2])]; rfl
      · rw [if_neg h2, if_neg (fun h' => h2 (String.ext h')), List.map_cons, ih]

theorem ofList_asList {V : Type} (l : List (String × V)) :
    (SMap.ofList l).map (fun p => (p.1.toList, p.2)) = SMap.ofList (l.map (fun p => (p.1.toList, p.2))) := by
  unfold SMap.ofList
  suffices h : ∀ m : SMap String V, (l.foldl (fun m e => SMap.insert m e.1 e.2) m).map (fun p => (p.1.toList, p.2)) =
      (l.map (fun p => (p.1.toList, p.2))).foldl (fun m e => SMap.insert m e.1 e.2) (m.map (fun p => (p.1.toList, p.2))) from
    h []
  induction l with
  | nil => intro m; rfl
  | cons p l ih =>
    intro m
    rw [List.foldl_cons, List.map_cons, List.foldl_cons, ih, insert_asList]

theorem asMap_dictOf (d : List (Text × K)) :
    asMap (dictOf d) = SMap.ofList (d.map (fun p => (p.1.get.toList, p.2))) := by
  unfold asMap dictOf
  rw [ofList_asList, SMap.ofList_eq_self (SMap.ofList_sorted _), List.map_map]
  rfl

theorem stdMap_isBytes {d : List (Text × K)} (h : ∀ t ∈ d.map Prod.fst, t.IsBytes) : stdMap d = .value (dictOf d) :=
  stdMap_bytes (fun p hp => h p.1 (List.mem_map_of_mem hp))

theorem onState_value {α σ : Type} (a : α) (s : σ) (f : α → Result Unit × σ) : onState (.value a) s f = f a := rfl

/-- **C191** (partial) A call with every label and every key given as `bytes` does what C++ does with the same names,
whatever the spelling of the shell; an exception of C++ is raised in Python and nothing ends the process. -/
theorem C191_call_partial (e : Element K) (c : ElementCall K) (h : ∀ t ∈ c.inner, t.IsBytes) :
    elementStep e c = (guarded (e.step c.op).1, (e.step c.op).2) := by
  have hm : ∀ ls : List Text, (ls.map Text.get).map String.toList = ls.map (fun t => t.get.toList) := fun ls => by
    rw [List.map_map]; rfl
  cases c with
  | setAtomicNumber z => rfl
  | setBindingEnergies d =>
    simp only [elementStep, setElementBinding]
    rw [stdMap_isBytes (d := d) h, onState_value]
    have := asMap_dictOf d
    unfold asMap at this
    simp only [ElementCall.op, Element.step, this]
  | setMassAttenuationCoefficients en ph co cm pa => rfl
  | setRadiativeTransitions sh ls vs =>
    simp only [elementStep]
    rw [rawStrings_bytes (l := ls) h, onState_value, stdString_toBytes, onState_value, hm]
    rfl
  | setNonradiativeTransitions sh ls vs =>
    simp only [elementStep]
    rw [rawStrings_bytes (l := ls) h, onState_value, stdString_toBytes, onState_value, hm]
    rfl
  | setShellConstants sh d =>
    simp only [elementStep]
    rw [stdMap_isBytes (d := d) h, onState_value, stdString_toBytes, onState_value, asMap_dictOf]
    rfl

/-- **C191** (partial) Any sequence of such calls leaves the element that the same sequence leaves in C++. -/
theorem C191_history_partial (e : Element K) (calls : List (ElementCall K))
    (h : ∀ c ∈ calls, ∀ t ∈ c.inner, t.IsBytes) : elementRun e calls = e.run (calls.map ElementCall.op) := by
  induction calls generalizing e with
  | nil => rfl
  | cons c rest ih =>
    have hc := C191_call_partial e c (h c List.mem_cons_self)
    have := ih (elementStep e c).2 (fun c hc => h c (List.mem_cons_of_mem _ hc))
    unfold elementRun Element.run at this ⊢
    rw [List.foldl_cons, this, List.map_cons, List.foldl_cons, hc]

/-- **C191** (violated) A single label or key given as `str` makes the call fail with `TypeError`, whatever the element;
nothing is taken over. -/
theorem C191_refused_violated (e : Element K) (c : ElementCall K) {n : String} (h : Text.str n ∈ c.inner) :
    elementStep e c = (.raises .typeError, e) := by
  cases c with
  | setAtomicNumber z => cases h
  | setBindingEnergies d =>
    obtain ⟨p, hp, e1⟩ := List.mem_map.1 h
    exact (C151_element_violated e d).1 ⟨n, p.2, by rw [← e1]; exact hp⟩
  | setMassAttenuationCoefficients en ph co cm pa => cases h
  | setRadiativeTransitions sh ls vs =>
    simp only [elementStep]
    rw [rawStrings_str (l := ls) h]; rfl
  | setNonradiativeTransitions sh ls vs =>
    simp only [elementStep]
    rw [rawStrings_str (l := ls) h]; rfl
  | setShellConstants sh d =>
    obtain ⟨p, hp, e1⟩ := List.mem_map.1 h
    simp only [elementStep]
    rw [stdMap_str d ⟨n, p.2, by rw [← e1]; exact hp⟩]; rfl

/-- **C191** (violated) An element without an atomic number, the default of the constructor, cannot be made: the default is
refused by the constructor of C++. -/
theorem C191_default_violated (name : Text) : (newElement name none : Result (Element K)) = .raises .valueError := by
  unfold newElement
  rw [stdString_toBytes]
  rfl

/-- **C191** (partial) With a positive atomic number the element is made, and it has this number; with another one
`ValueError` is raised. -/
theorem C191_new_partial (name : Text) (z : Int) :
    (0 < z → ∃ e : Element K, newElement name (some z) = .value e ∧ elementAtomicNumber e = z) ∧
    (z ≤ 0 → (newElement name (some z) : Result (Element K)) = .raises .valueError) := by
  unfold newElement
  rw [stdString_toBytes, do_bind, value_bind]
  unfold Element.mk?
  constructor
  · intro h
    rw [Option.getD_some, if_neg (by omega)]
    exact ⟨_, rfl, rfl⟩
  · intro h
    rw [Option.getD_some, if_pos (by omega)]
    rfl

/-- **C191** (partial) The answers: each name as `bytes` has the value of C++. The shell may have any spelling; one
that the element has not raises `ValueError`. -/
theorem C191_shells_partial (e : Element K) (shell : Text) :
    (∀ s, e.shells.find? shell.get.toList = some s → ∃ r n c, elementRadiative e shell = .value r ∧
      elementNonradiative e shell = .value n ∧ elementConstants e shell = .value c ∧ ∀ k : String,
        lookup r (.bytes k) = s.radiative.find? k.toList ∧ lookup n (.bytes k) = s.nonradiative.find? k.toList ∧
        lookup c (.bytes k) = s.constants.find? k.toList) ∧
    (e.shells.find? shell.get.toList = none → elementRadiative e shell = .raises .valueError ∧
      elementNonradiative e shell = .raises .valueError ∧ elementConstants e shell = .raises .valueError) := by
  unfold elementRadiative elementNonradiative elementConstants Init.getShell
  rw [stdString_toBytes]
  simp only [do_bind, value_bind]
  constructor
  · intro s hs
    rw [hs]
    exact ⟨_, _, _, rfl, rfl, rfl, fun k => ⟨lookup_bytes _ _, lookup_bytes _ _, lookup_bytes _ _⟩⟩
  · intro hs
    rw [hs]
    exact ⟨rfl, rfl, rfl⟩

/-- **C191** (partial) The coefficients at several energies: under each name as `bytes`, the values of C++ at each of the
energies in their order; a number is taken as a list of one. -/
theorem C191_coefficients_partial (e : Element K) (x : K) (xs : List K) :
    elementMus e (some (.one x)) = elementMus e (some (.many [x])) ∧
    (∀ ms, each e.getMu xs = .ok ms → xs ≠ [] → ∃ d, elementMus e (some (.many xs)) = .value d ∧
      lookup d (.bytes "total") = some (ms.map (fun m => m.total)) ∧
      lookup d (.bytes "energy") = some (ms.map (fun m => m.energy)) ∧
      lookup d (.bytes "coherent") = some (ms.map (fun m => m.coherent)) ∧
      lookup d (.bytes "compton") = some (ms.map (fun m => m.compton)) ∧
      lookup d (.bytes "pair") = some (ms.map (fun m => m.pair)) ∧
      lookup d (.bytes "photoelectric") = some (ms.map (fun m => m.photoelectric)) ∧
      ∀ s ∈ Element.photoShells, lookup d (.bytes (String.ofList s)) =
        some (ms.map (fun m => Element.at0 m.partials s))) := by
  refine ⟨rfl, fun ms hms hxs => ?_⟩
  have h := Element.C75_element_coefficients e xs
  rw [hms] at h
  simp only [Outcome.bind, if_neg hxs] at h
  refine ⟨_, by simp only [elementMus, elementMuMap, h]; rfl, ?_⟩
  have hf : ∀ s ∈ Element.muKeys, lookup (bytesDict (columnsOf Element.muKeys (ms.map Element.muMap)))
      (.bytes (String.ofList s)) = some (ms.map (fun m => Element.at0 (Element.muMap m) s)) := by
    intro s hs
    rw [lookup_bytes, String.toList_ofList]
    have hn : ((columnsOf Element.muKeys (ms.map Element.muMap)).map Prod.fst).Nodup := by
      have : (columnsOf Element.muKeys (ms.map Element.muMap)).map Prod.fst = Element.muKeys := by
        unfold columnsOf; simp [List.map_map, Function.comp_def]
      rw [this]; decide +kernel
    have hm : (s, (ms.map Element.muMap).map (fun m => Element.at0 m s)) ∈
        columnsOf Element.muKeys (ms.map Element.muMap) := List.mem_map.2 ⟨s, hs, rfl⟩
    rw [SMap.find?_of_mem_nodup hn hm, List.map_map]
    rfl
  have hk : ∀ (s : Str) (f : Mu K → K), s ∈ Element.muKeys → (∀ m, Element.at0 (Element.muMap m) s = f m) →
      lookup (bytesDict (columnsOf Element.muKeys (ms.map Element.muMap))) (.bytes (String.ofList s)) = some (ms.map f) := by
    intro s f hs hfm
    rw [hf s hs]
    congr 1
    exact List.map_congr_left (fun m _ => hfm m)
  have ent := fun m => Element.muMap_entries (K := K) m
  refine ⟨hk "total".toList _ (by decide) (fun m => (ent m).2.2.2.2.2.2),
    hk "energy".toList _ (by decide) (fun m => (ent m).2.2.2.1), hk "coherent".toList _ (by decide) (fun m => (ent m).2.1),
    hk "compton".toList _ (by decide) (fun m => (ent m).2.2.1), hk "pair".toList _ (by decide) (fun m => (ent m).2.2.2.2.1),
    hk "photoelectric".toList _ (by decide) (fun m => (ent m).2.2.2.2.2.1), fun s hs => ?_⟩
  exact hk s _ (List.mem_append_left _ hs) (fun m => (ent m).1 s hs)

/-- **C191** (partial) Without an energy: the tables that were given last, under their names as `bytes`; nothing before any were
given. -/
theorem C191_tables_partial (e : Element K) :
    ∃ d, elementMus e none = .value d ∧ (e.mu = none → d = []) ∧
      ∀ t, e.mu = some t → lookup d (.bytes "energy") = some e.muEnergy ∧ lookup d (.bytes "coherent") = some t.coherent ∧
        lookup d (.bytes "compton") = some t.compton ∧ lookup d (.bytes "pair") = some t.pair ∧
        lookup d (.bytes "photoelectric") = some t.photoelectric ∧ lookup d (.bytes "total") = some t.total := by
  refine ⟨bytesDict (Init.coefficientTable e), rfl, fun h => ?_, fun t h => ?_⟩
  · unfold Init.coefficientTable; rw [h]; rfl
  · unfold Init.coefficientTable
    rw [h]
    refine ⟨?_, ?_, ?_, ?_, ?_, ?_⟩ <;> rw [lookup_bytes] <;> rfl

/-- **C191** (partial) The lines after a distribution of vacancies with all its shells as `bytes`: each line as `bytes`, with the
energy and the rate of C++. -/
theorem C191_lines_partial (e : Element K) (d : List (Text × K)) (h : ∀ t ∈ d.map Prod.fst, t.IsBytes) :
    elementLines e d = (guarded (e.getLines (SMap.ofList (d.map (fun p => (p.1.get.toList, p.2)))) true true)).bind
      (fun lines => .value (lines.map (fun p =>
        (Text.bytes (String.ofList p.1), [(Text.bytes "energy", p.2.energy), (Text.bytes "rate", p.2.rate)])))) := by
  unfold elementLines
  rw [stdMap_isBytes h, do_bind, value_bind, asMap_dictOf]
  rfl

/-- **C191** (violated) No dictionary that the element gives back has a name as `str`, and no distribution of vacancies with a
shell as `str` is accepted. -/
theorem C191_getters_violated (e : Element K) (n : String) (shell : Text) (d : List (Text × K)) :
    (∀ r, elementRadiative e shell = .value r → lookup r (.str n) = none) ∧
    (∀ r, elementNonradiative e shell = .value r → lookup r (.str n) = none) ∧
    (∀ r, elementConstants e shell = .value r → lookup r (.str n) = none) ∧
    (∀ en r, elementMus e en = .value r → lookup r (.str n) = none) ∧
    (∀ r, elementLines e d = .value r → lookup r (.str n) = none) ∧
    lookup (getElementBinding e) (.str n) = none ∧
    (Text.str n ∈ d.map Prod.fst → elementLines e d = .raises .typeError) := by
  refine ⟨fun r h => ?_, fun r h => ?_, fun r h => ?_, fun en r h => ?_, fun r h => ?_, ?_, fun h => ?_⟩
  · unfold elementRadiative at h
    rw [do_bind, bind_eq_value] at h
    obtain ⟨_, _, h⟩ := h
    rw [do_bind, bind_eq_value] at h
    obtain ⟨_, _, h⟩ := h
    cases h
    exact lookup_str _ _
  · unfold elementNonradiative at h
    rw [do_bind, bind_eq_value] at h
    obtain ⟨_, _, h⟩ := h
    rw [do_bind, bind_eq_value] at h
    obtain ⟨_, _, h⟩ := h
    cases h
    exact lookup_str _ _
  · unfold elementConstants at h
    rw [do_bind, bind_eq_value] at h
    obtain ⟨_, _, h⟩ := h
    rw [do_bind, bind_eq_value] at h
    obtain ⟨_, _, h⟩ := h
    cases h
    exact lookup_str _ _
  · unfold elementMus at h
    rw [do_bind, bind_eq_value] at h
    obtain ⟨_, _, h⟩ := h
    cases h
    exact lookup_str _ _
  · unfold elementLines at h
    rw [do_bind, bind_eq_value] at h
    obtain ⟨_, _, h⟩ := h
    rw [do_bind, bind_eq_value] at h
    obtain ⟨ls, _, h⟩ := h
    cases h
    unfold lookup
    rw [Option.map_eq_none_iff, List.find?_eq_none]
    intro p hp
    obtain ⟨q, _, rfl⟩ := List.mem_map.1 hp
    simp
  · exact lookup_str _ _
  · obtain ⟨p, hp, e1⟩ := List.mem_map.1 h
    unfold elementLines
    rw [stdMap_str d ⟨n, p.2, by rw [← e1]; exact hp⟩]; rfl

section examples

attribute [local instance] Element.exampleTrans Library.exampleTrig

/-- A history of an element with a K shell: its labels as `bytes`, the shell as `str`. -/
def exampleCalls : List (ElementCall ℚ) :=
  [.setBindingEnergies [(.bytes "L3", 1), (.bytes "L2", 1), (.bytes "L1", 2), (.bytes "K", 5)],
   .setRadiativeTransitions (.str "K") [.bytes "KL3"] [1],
   .setShellConstants (.bytes "K") [(.bytes "omega", 1 / 2)]]

/-- The hypotheses of the theorems about histories are met by a real one, with lines: half a photon of energy 4 for each
vacancy of the K shell. -/
example : (∀ c ∈ exampleCalls, ∀ t ∈ c.inner, t.IsBytes) ∧
    ∃ e, newElement (.str "Xx") (some 9) = .value e ∧
      elementLines (elementRun e exampleCalls) [(.bytes "K", 1)] =
        .value [(.bytes "KL3", [(.bytes "energy", 4), (.bytes "rate", 1 / 2)])] ∧
      elementStep e (.setRadiativeTransitions (.bytes "K") [.str "KL3"] [1]) = (.raises .typeError, e) := by
  refine ⟨?_, _, rfl, ?_, rfl⟩
  · intro c hc t ht
    simp only [exampleCalls, List.mem_cons, List.not_mem_nil, or_false] at hc
    rcases hc with rfl | rfl | rfl <;> simp only [ElementCall.inner, List.map_cons, List.map_nil, List.mem_cons,
      List.not_mem_nil, or_false] at ht
    · rcases ht with rfl | rfl | rfl | rfl <;> exact ⟨_, rfl⟩
    · subst ht; exact ⟨_, rfl⟩
    · subst ht; exact ⟨_, rfl⟩
  · decide +kernel

end examples

end Python
end Fisx
