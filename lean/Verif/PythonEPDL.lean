import Verif.PythonElement
import Verif.VectorApi

/-!
# PyEPDL97 (C196, C197)

The library of photon data in Python (PyEPDL97.pyx), with the interface of Python 3.
-/

set_option linter.unusedSectionVars false

namespace Fisx
namespace Python

section model

variable {K : Type} [Field K] [LinearOrder K] [IsStrictOrderedRing K] [Trans K]

/-- FisxCythonTools.py:84-86, `toStringKeys`, of a map of C++. -/
def strDict {V : Type} (m : SMap Str V) : List (Text × V) := (bytesDict m).map (fun p => (toStr p.1, p.2))

/-- fisx_epdl97.cpp:61-109: `setDataDirectory` with a name. `files` has the two files of each directory, the binding energies and the cross
sections; the last character of an empty name cannot be taken (L88), after the object has been cleared. -/
def epdlSetDirectory (files : String → Option (List (Scan K)) × Option (List (Scan K))) (e : EPDL97 K) (directoryName : String) :
    Outcome Unit × EPDL97 K :=
  if directoryName = "" then (.throw .outOfRange, EPDL97.new)
  else e.setDataDirectory (files directoryName).1 (files directoryName).2

/-- PyEPDL97.pyx:40-44, fisx_epdl97.cpp:50-59: the constructor; `dataDir` is `DataDir.FISX_DATA_DIR`. -/
def newEpdl (files : String → Option (List (Scan K)) × Option (List (Scan K))) (dataDir : Text) (name : Option Text) : Result (EPDL97 K) := do
  let n ← stdString (toBytes (name.getD dataDir))
  let r := epdlSetDirectory files EPDL97.new n
  let _ ← guarded r.1
  return r.2

/-- A call that changes the object. -/
inductive EpdlCall (K : Type)
  | setDataDirectory (name : Text)
  | setBindingEnergies (z : Int) (energies : List (Text × K))

/-- PyEPDL97.pyx:50-54: one call; the names of the shells go to `std::string` as they are. -/
def epdlStep (files : String → Option (List (Scan K)) × Option (List (Scan K))) (e : EPDL97 K) : EpdlCall K → Result Unit × EPDL97 K
  | .setDataDirectory t => onState (stdString (toBytes t)) e (fun n =>
      let r := epdlSetDirectory files e n
      (guarded r.1, r.2))
  | .setBindingEnergies z d => onState (stdMap d) e (fun m =>
      let r := e.setBindingEnergies z (asMap m)
      (guarded r.1, r.2))

/-- A sequence of calls, the exceptions being caught. -/
def epdlRun (files : String → Option (List (Scan K)) × Option (List (Scan K))) (e : EPDL97 K) (calls : List (EpdlCall K)) : EPDL97 K :=
  calls.foldl (fun e c => (epdlStep files e c).2) e

/-- PyEPDL97.pyx:56-57, `getBindingEnergies`: with `str` keys (see C144 for what happens when C++ throws). -/
def epdlBindings (e : EPDL97 K) (z : Int) : Result (List (Text × K)) := do
  let m ← epdlBindingEnergies e z
  return strDict m

/-- PyEPDL97.pyx:59-65, `getMassAttenuationCoefficients`: the table without energies; a number is a list of one. The static index of C++
(`last`) is an argument and a result. -/
def epdlMus (e : EPDL97 K) (z : Int) (energy : Option (Arg K)) (last : Nat) : Result (List (Text × List K) × Nat) :=
  match energy with
  | none => do
    let m ← guarded (e.getTable z)
    return (strDict m, last)
  | some (.one x) => do
    let r ← guarded (e.getMus z [x] last)
    return (strDict r.1, r.2)
  | some (.many xs) => do
    let r ← guarded (e.getMus z xs last)
    return (strDict r.1, r.2)

/-- fisx_epdl97.cpp:693-738, `getPhotoelectricWeights(z, energy)` with the copies of the coefficients (L713-717), which `EPDL97.getWeights`
leaves out. -/
def weightsMap (e : EPDL97 K) (z : Int) (x : K) (last : Nat) : Outcome (SMap Str K × Nat) := do
  let (m, last) ← e.getMu z x last
  let copies := (m.map (fun p => ("mu ".toList ++ p.1, p.2))).foldl (fun r p => SMap.insert r p.1 p.2) ([] : SMap Str K)
  let mu := Element.at0 m "photoelectric".toList
  if mu ≤ 1 / 10000000000 then
    return ((Element.photoShells.map (fun s => (s, (0 : K)))).foldl (fun r p => SMap.insert r p.1 p.2) copies, last)
  else return ((Element.photoShells.map (fun s => (s, Element.at0 m s / mu))).foldl (fun r p => SMap.insert r p.1 p.2) copies, last)

/-- fisx_epdl97.cpp:740-766, the same at several energies. -/
def weightsMaps (e : EPDL97 K) (z : Int) (xs : List K) (last : Nat) : Outcome (SMap Str (List K) × Nat) :=
  gather (fun last x => weightsMap e z x last) last xs

/-- PyEPDL97.pyx:76-80, `getPhotoelectricWeights`. -/
def epdlWeights (e : EPDL97 K) (z : Int) (energy : Arg K) (last : Nat) : Result (List (Text × List K) × Nat) :=
  match energy with
  | .one x => do
    let r ← guarded (weightsMaps e z [x] last)
    return (strDict r.1, r.2)
  | .many xs => do
    let r ← guarded (weightsMaps e z xs last)
    return (strDict r.1, r.2)

end model

/-! ## Specification -/

/-- A name is given as `bytes`. -/
def Text.isBytes : Text → Bool
  | .bytes _ => true
  | .str _ => false

/-- The calls of C++ made by a call in Python: none when the name of a shell is a `str`. An empty name of a directory leaves what a directory
without files leaves. -/
def EpdlCall.ops {K : Type} (files : String → Option (List (Scan K)) × Option (List (Scan K))) : EpdlCall K → List (EPDL97.Op K)
  | .setDataDirectory t =>
    if t.get = "" then [.setDataDirectory none none] else [.setDataDirectory (files t.get).1 (files t.get).2]
  | .setBindingEnergies z d =>
    if d.all (fun p => p.1.isBytes) then [.setBindingEnergies z (SMap.ofList (d.map (fun p => (p.1.get.toList, p.2))))] else []

/-! ## Proofs -/

section proofs

variable {K : Type} [Field K] [LinearOrder K] [IsStrictOrderedRing K] [Trans K] [Trig K]
  {files : String → Option (List (Scan K)) × Option (List (Scan K))} {e : EPDL97 K}

theorem lookup_strDict {V : Type} (m : SMap Str V) (n : String) : lookup (strDict m) (.str n) = m.find? n.toList := by
  induction m with
  | nil => rfl
  | cons p m ih =>
    rw [SMap.find?_cons, ← ih]
    by_cases h : p.1 = n.toList
    · simp [lookup, strDict, bytesDict, toStr, h]
    · have h' : ¬ String.ofList p.1 = n := fun e => h (by rw [← e]; simp)
      simp [lookup, strDict, bytesDict, toStr, h, h']

theorem strDict_str {V : Type} (m : SMap Str V) : ∀ p ∈ strDict m, ∃ n, p.1 = .str n := by
  intro p hp
  obtain ⟨q, hq, rfl⟩ := List.mem_map.1 hp
  obtain ⟨r, _, rfl⟩ := List.mem_map.1 hq
  exact ⟨_, rfl⟩

theorem setDirectory_state (n : String) : (epdlSetDirectory files e n).2 =
    (if n = "" then [EPDL97.Op.setDataDirectory none none] else [.setDataDirectory (files n).1 (files n).2]).foldl EPDL97.step e := by
  unfold epdlSetDirectory
  split <;> rfl

theorem step_ops (k : EpdlCall K) : (epdlStep files e k).2 = (k.ops files).foldl EPDL97.step e := by
  cases k with
  | setDataDirectory t =>
    simp only [epdlStep, EpdlCall.ops]
    rw [stdString_toBytes, onState_value]
    exact setDirectory_state t.get
  | setBindingEnergies z d =>
    simp only [epdlStep, EpdlCall.ops]
    by_cases h : d.all (fun p => p.1.isBytes) = true
    · have hb : ∀ t ∈ d.map Prod.fst, t.IsBytes := by
        intro t ht
        obtain ⟨p, hp, rfl⟩ := List.mem_map.1 ht
        have := List.all_eq_true.1 h p hp
        cases hq : p.1 with
        | bytes n => exact ⟨n, rfl⟩
        | str n => rw [hq] at this; cases this
      rw [if_pos h, stdMap_isBytes hb, onState_value, asMap_dictOf]
      rfl
    · rw [if_neg h]
      have : ∃ n x, (Text.str n, x) ∈ d := by
        by_contra hn
        refine h (List.all_eq_true.2 (fun p hp => ?_))
        cases hq : p.1 with
        | bytes n => rfl
        | str n => exact absurd ⟨n, p.2, by rw [← hq]; exact hp⟩ hn
      rw [stdMap_str d this]
      rfl

/-! ## The properties: the object -/

/-- **C196** A new object reads the directory that is named, as `str` or as `bytes`, or that of the package when none is named; when C++ throws (a file that is
missing or is not as expected) there is an exception and no object. -/
theorem C196_constructor (dataDir : Text) (name : Option Text) :
    newEpdl files dataDir name = newEpdl files dataDir (some (.str (name.getD dataDir).get)) ∧
    ((name.getD dataDir).get = "" → newEpdl files dataDir name = .raises .indexError) ∧
    ((name.getD dataDir).get ≠ "" → ∀ bf cf, files (name.getD dataDir).get = (bf, cf) →
      (∀ e, newEpdl files dataDir name = .value e ↔
        (EPDL97.setDataDirectory EPDL97.new bf cf).1 = .ok () ∧ e = EPDL97.run [.setDataDirectory bf cf]) ∧
      ∀ x, (EPDL97.setDataDirectory (EPDL97.new : EPDL97 K) bf cf).1 = .throw x → newEpdl files dataDir name = .raises (translate x)) := by
  have hg : newEpdl files dataDir name =
      (guarded (epdlSetDirectory files EPDL97.new (name.getD dataDir).get).1).bind
        (fun _ => .value (epdlSetDirectory files EPDL97.new (name.getD dataDir).get).2) := by
    unfold newEpdl
    rw [stdString_toBytes]
    rfl
  refine ⟨?_, fun h => ?_, fun h bf cf hf => ⟨fun e => ?_, fun x hx => ?_⟩⟩
  · rw [hg]
    unfold newEpdl
    rw [stdString_toBytes]
    rfl
  · rw [hg]
    unfold epdlSetDirectory
    rw [if_pos h]
    rfl
  · rw [hg]
    unfold epdlSetDirectory
    rw [if_neg h, hf]
    dsimp only
    constructor
    · intro he
      obtain ⟨u, hu, he⟩ := bind_eq_value.1 he
      cases he
      cases hr : (EPDL97.setDataDirectory (EPDL97.new : EPDL97 K) bf cf).1 with
      | ok u' => exact ⟨rfl, rfl⟩
      | throw x => rw [hr] at hu; cases hu
      | ub x => rw [hr] at hu; cases hu
      | diverge => rw [hr] at hu; cases hu
    · rintro ⟨h1, rfl⟩
      rw [h1]
      rfl
  · rw [hg]
    unfold epdlSetDirectory
    rw [if_neg h, hf]
    dsimp only
    rw [hx]
    rfl

/-- **C196** Whatever calls are made in Python, accepted or not, the object is the one that the calls of C++ with the same arguments make (without those that set
binding energies under a name given as `str`): what is proved of all histories in C++ holds in Python. -/
theorem C196_history (e : EPDL97 K) (calls : List (EpdlCall K)) :
    epdlRun files e calls = (calls.flatMap (EpdlCall.ops files)).foldl EPDL97.step e := by
  induction calls generalizing e with
  | nil => rfl
  | cons k rest ih =>
    show epdlRun files (epdlStep files e k).2 rest = _
    rw [ih, step_ops, List.flatMap_cons, List.foldl_append]

/-- **C196** The objects that can be made in Python are histories of C++. -/
theorem C196_reachable (dataDir : Text) (name : Option Text) (calls : List (EpdlCall K)) (h : newEpdl files dataDir name = .value e) :
    ∃ bf cf, epdlRun files e calls = EPDL97.run (.setDataDirectory bf cf :: calls.flatMap (EpdlCall.ops files)) := by
  by_cases hn : (name.getD dataDir).get = ""
  · rw [(C196_constructor dataDir name).2.1 hn] at h
    cases h
  · obtain ⟨_, rfl⟩ := (((C196_constructor dataDir name).2.2 hn _ _ rfl).1 e).1 h
    refine ⟨(files (name.getD dataDir).get).1, (files (name.getD dataDir).get).2, ?_⟩
    rw [C196_history]
    rfl

/-- **C196** (violated) Binding energies cannot be set under names given as `str`: the call raises `TypeError` and changes nothing; so what getBindingEnergies gives
cannot be set again (unless it is empty). -/
theorem C196_binding_violated (e e' : EPDL97 K) (z z' : Int) :
    (∀ (d : List (Text × K)) n x, (Text.str n, x) ∈ d → epdlStep files e (.setBindingEnergies z d) = (.raises .typeError, e)) ∧
    (∀ d, epdlBindings e' z' = .value d → d ≠ [] → epdlStep files e (.setBindingEnergies z d) = (.raises .typeError, e)) := by
  have key : ∀ (d : List (Text × K)) n x, (Text.str n, x) ∈ d → epdlStep files e (.setBindingEnergies z d) = (.raises .typeError, e) := by
    intro d n x h
    simp only [epdlStep]
    rw [stdMap_str d ⟨n, x, h⟩]
    rfl
  refine ⟨key, fun d hd hne => ?_⟩
  obtain ⟨m, _, hd⟩ := bind_eq_value.1 hd
  cases hd
  obtain ⟨p, rest, hp⟩ := List.exists_cons_of_ne_nil hne
  obtain ⟨n, hn⟩ := strDict_str m p (by rw [hp]; exact List.mem_cons_self)
  exact key _ n p.2 (by rw [hp, ← hn]; exact List.mem_cons_self)

/-- **C196** (partial) Under names given as `bytes` the binding energies of a loaded element are set and come back, under the same names as `str`; those of the other
elements stay. What is missing: `str`. -/
theorem C196_binding_partial (e : EPDL97 K) (z : Int) (d : List (Text × K)) (hb : ∀ t ∈ d.map Prod.fst, t.IsBytes)
    (hn : (d.map (fun p => p.1.get)).Nodup) (h1 : 1 ≤ z) (h2 : z ≤ e.binding.length) :
    (epdlStep files e (.setBindingEnergies z d)).1 = .value () ∧
    (∃ r, epdlBindings (epdlStep files e (.setBindingEnergies z d)).2 z = .value r ∧
      ∀ n x, lookup r (.str n) = some x ↔ (Text.bytes n, x) ∈ d) ∧
    (∀ z' : Int, 1 ≤ z' → z' ≤ e.binding.length → z' ≠ z →
      epdlBindings (epdlStep files e (.setBindingEnergies z d)).2 z' = epdlBindings e z') := by
  have hs : epdlStep files e (.setBindingEnergies z d) =
      (.value (), { e with binding := e.binding.set (z - 1).toNat (SMap.ofList (d.map (fun p => (p.1.get.toList, p.2)))) }) := by
    simp only [epdlStep]
    rw [stdMap_isBytes hb, onState_value, asMap_dictOf]
    unfold EPDL97.setBindingEnergies
    rw [if_neg (by omega), if_pos (by omega)]
    rfl
  have hget : ∀ (e : EPDL97 K) (z : Int), 1 ≤ z → z ≤ e.binding.length → e.getBindingEnergies z = vget e.binding (z - 1).toNat := by
    intro e z h1 h2
    unfold EPDL97.getBindingEnergies
    rw [if_neg (by omega)]
    split
    · rename_i h
      have : z = e.binding.length := by omega
      unfold vgetI
      rw [if_neg (by omega), this]
    · unfold vgetI
      rw [if_neg (by omega)]
  rw [hs]
  refine ⟨rfl, ?_, fun z' h1' h2' hne => ?_⟩
  · refine ⟨strDict (SMap.ofList (d.map (fun p => (p.1.get.toList, p.2)))), ?_, fun n x => ?_⟩
    · unfold epdlBindings epdlBindingEnergies
      rw [hget _ z h1 (by simpa using h2)]
      unfold vget
      dsimp only
      rw [List.getElem?_set_self (by omega)]
      rfl
    · rw [lookup_strDict]
      unfold SMap.ofList
      have hn' : ((d.map (fun p => (p.1.get.toList, p.2))).map Prod.fst).Nodup := by
        have : (d.map (fun p => (p.1.get.toList, p.2))).map Prod.fst = (d.map (fun p => p.1.get)).map String.toList := by
          simp [Function.comp_def]
        rw [this]
        exact hn.map (fun a b h => String.toList_injective h)
      have hx : SMap.find? ((d.map (fun p => (p.1.get.toList, p.2))).foldl (fun m e => SMap.insert m e.1 e.2) []) n.toList =
          SMap.find? (d.map (fun p => (p.1.get.toList, p.2))) n.toList := by
        rw [SMap.foldl_insert_find? _ _ _ hn']
        cases SMap.find? (d.map (fun p => (p.1.get.toList, p.2))) n.toList <;> rfl
      rw [hx]
      constructor
      · intro h
        have := SMap.mem_of_find? h
        obtain ⟨p, hp, he⟩ := List.mem_map.1 this
        obtain ⟨m, hm⟩ := hb p.1 (List.mem_map_of_mem hp)
        obtain ⟨k, y⟩ := p
        dsimp only at hm he
        subst hm
        simp only [Text.get, Prod.mk.injEq] at he
        obtain ⟨e1, e2⟩ := he
        have e1 := String.toList_injective e1
        subst e1
        subst e2
        exact hp
      · intro h
        exact SMap.find?_of_mem_nodup hn' (List.mem_map.2 ⟨_, h, rfl⟩)
  · unfold epdlBindings epdlBindingEnergies
    rw [hget e z' h1' h2', hget _ z' h1' (by simpa using h2')]
    unfold vget
    dsimp only
    rw [List.getElem?_set_ne (by omega)]

/-! ## The properties: the answers -/

/-- The entries of `r` are those of the maps `ms`, one of which was made for each energy: the value of `n` at place `i` is that of the i-th map, and `n` is there
when it is in the i-th map. -/
def Collects {K : Type} (r : List (Text × List K)) (ms : List (SMap Str K)) : Prop :=
  (ms = [] → r = []) ∧ (∀ p ∈ r, (∃ n, p.1 = .str n) ∧ p.2.length = ms.length) ∧
  ∀ i, (h : i < ms.length) → ∀ n : String, (lookup r (.str n)).map (·[i]?) = (ms[i].find? n.toList).map some

theorem find?_columnsOf (ks : List Str) (ms : List (SMap Str K)) (q : Str) :
    (columnsOf ks ms).find? q = if q ∈ ks then some (ms.map (fun m => Element.at0 m q)) else none := by
  unfold columnsOf
  split
  · rename_i h
    exact find?_map_keys (fun k => ms.map (fun m => Element.at0 m k)) ks q h
  · rename_i h
    rw [SMap.find?_eq_none_iff]
    intro p hp e
    obtain ⟨k, hk, rfl⟩ := List.mem_map.1 hp
    exact h (e ▸ hk)

theorem find?_keys (m : SMap Str K) (q : Str) : m.find? q = if q ∈ m.keys then some (Element.at0 m q) else none := by
  unfold Element.at0
  cases h : m.find? q with
  | some v =>
    have : q ∈ m.keys := List.mem_map.2 ⟨_, SMap.mem_of_find? h, rfl⟩
    rw [if_pos this]
    rfl
  | none =>
    have : q ∉ m.keys := by
      intro hq
      obtain ⟨p, hp, e⟩ := List.mem_map.1 hq
      exact (SMap.find?_eq_none_iff m q).1 h p hp e
    rw [if_neg this]

theorem collects_columns (ks : List Str) (ms : List (SMap Str K)) (h : ∀ m ∈ ms, m.keys = ks) :
    Collects (strDict (if ms = [] then [] else columnsOf ks ms)) ms := by
  by_cases hm : ms = []
  · subst hm
    exact ⟨fun _ => rfl, (by intro p hp; cases hp), fun i h => absurd h (Nat.not_lt_zero i)⟩
  · rw [if_neg hm]
    refine ⟨fun e => absurd e hm, fun p hp => ⟨strDict_str _ p hp, ?_⟩, fun i hi n => ?_⟩
    · obtain ⟨q, hq, rfl⟩ := List.mem_map.1 hp
      obtain ⟨c, hc, rfl⟩ := List.mem_map.1 hq
      obtain ⟨k, _, rfl⟩ := List.mem_map.1 hc
      simp
    · rw [lookup_strDict, find?_columnsOf, find?_keys ms[i], h _ (List.getElem_mem hi)]
      split
      · simp [hi]
      · rfl

theorem oneByOne_all {σ α : Type} {f : σ → K → Outcome (α × σ)} {P : α → Prop} (hf : ∀ s x r, f s x = .ok r → P r.1) :
    ∀ (xs : List K) (s : σ) ms l, oneByOne f s xs = .ok (ms, l) → ms.length = xs.length ∧ ∀ m ∈ ms, P m := by
  intro xs
  induction xs with
  | nil =>
    intro s ms l h
    cases h
    exact ⟨rfl, by intro m hm; cases hm⟩
  | cons x rest ih =>
    intro s ms l h
    unfold oneByOne at h
    obtain ⟨r, hr, h⟩ := Outcome.bind_eq_ok.1 h
    obtain ⟨rs, hrs, h⟩ := Outcome.bind_eq_ok.1 h
    cases h
    obtain ⟨h1, h2⟩ := ih _ _ _ hrs
    refine ⟨by simp [h1], ?_⟩
    intro m hm
    rcases List.mem_cons.1 hm with rfl | hm
    · exact hf _ _ _ hr
    · exact h2 m hm

/-- The maps for several energies, put together, are those made for each of them. -/
theorem gather_collects {σ : Type} {f : σ → K → Outcome (SMap Str K × σ)} (hs : ∀ s x r, f s x = .ok r → r.1.Sorted)
    (hk : ∀ s x r s' x' r', f s x = .ok r → f s' x' = .ok r' → r.1.keys = r'.1.keys) (s : σ) (xs : List K) :
    ∃ g : List (SMap Str K) → SMap Str (List K), gather f s xs = (oneByOne f s xs).bind (fun r => .ok (g r.1, r.2)) ∧
      ∀ ms l, oneByOne f s xs = .ok (ms, l) → Collects (strDict (g ms)) ms := by
  by_cases hex : ∃ s x r, f s x = .ok r
  · obtain ⟨s0, x0, r0, h0⟩ := hex
    have hks : r0.1.keys.Pairwise (· < ·) := by
      have := hs _ _ _ h0
      unfold SMap.Sorted at this
      simpa only [SMap.keys, List.pairwise_map] using this
    refine ⟨fun ms => if ms = [] then [] else columnsOf r0.1.keys ms, ?_, fun ms l h => ?_⟩
    · rw [gather_eq hks (fun s x r h => hk _ _ _ _ _ _ h h0)]
      cases ho : oneByOne f s xs with
      | ok r =>
        have := (oneByOne_all (P := fun _ => True) (fun _ _ _ _ => trivial) xs s r.1 r.2 ho).1
        have he : r.1 = [] ↔ xs = [] := by rw [← List.length_eq_zero_iff, ← List.length_eq_zero_iff, this]
        simp only [Outcome.bind, he]
      | throw x => rfl
      | ub u => rfl
      | diverge => rfl
    · exact collects_columns _ _ (oneByOne_all (P := fun m => m.keys = r0.1.keys) (fun s x r h => hk _ _ _ _ _ _ h h0) xs s ms l h).2
  · refine ⟨fun _ => [], ?_, fun ms l h => ?_⟩
    · unfold gather
      cases xs with
      | nil => rfl
      | cons x rest =>
        unfold gatherLoop oneByOne
        cases hf : f s x with
        | ok r => exact absurd ⟨_, _, _, hf⟩ hex
        | throw x => rfl
        | ub u => rfl
        | diverge => rfl
    · obtain ⟨_, h2⟩ := oneByOne_all (P := fun _ => False) (fun s x r h => hex ⟨_, _, _, h⟩) xs s ms l h
      cases ms with
      | nil => exact ⟨fun _ => rfl, (by intro p hp; cases hp), fun i h => absurd h (Nat.not_lt_zero i)⟩
      | cons m _ => exact absurd List.mem_cons_self (h2 m)

/-- **C197** getMassAttenuationCoefficients with energies: a number is a list of one; the dictionary, with `str` keys, has what C++ gives for each of the energies, in
order; an exception of C++ is an exception. In each map the photoelectric effect is the sum of its shells, and the total that of the four processes. -/
theorem C197_coefficients (e : EPDL97 K) (z : Int) (xs : List K) (last : Nat) :
    (∀ x, epdlMus e z (some (.one x)) last = epdlMus e z (some (.many [x])) last) ∧
    (∀ r l, epdlMus e z (some (.many xs)) last = .value (r, l) →
      ∃ ms, oneByOne (fun last x => e.getMu z x last) last xs = .ok (ms, l) ∧ Collects r ms) ∧
    (∀ ms l, oneByOne (fun last x => e.getMu z x last) last xs = .ok (ms, l) → (∃ r, epdlMus e z (some (.many xs)) last = .value (r, l)) ∧
      ms.length = xs.length ∧ ∀ m ∈ ms,
        Element.at0 m "photoelectric".toList = (Element.photoShells.map (fun s => Element.at0 m s)).sum ∧
        Element.at0 m "total".toList = Element.at0 m "photoelectric".toList + Element.at0 m "coherent".toList
          + Element.at0 m "compton".toList + Element.at0 m "pair".toList) ∧
    (∀ x, oneByOne (fun last x => e.getMu z x last) last xs = .throw x → epdlMus e z (some (.many xs)) last = .raises (translate x)) := by
  obtain ⟨g, hg, hc⟩ := gather_collects (f := fun last x => e.getMu z x last) (fun s x r h => EPDL97.getMu_sorted h)
    (fun s x r s' x' r' h h' => EPDL97.getMu_keys h h') last xs
  have hm : epdlMus e z (some (.many xs)) last =
      (guarded ((oneByOne (fun last x => e.getMu z x last) last xs).bind (fun r => .ok (g r.1, r.2)))).bind
        (fun r => .value (strDict r.1, r.2)) := by
    rw [← hg]
    rfl
  refine ⟨fun x => rfl, fun r l h => ?_, fun ms l h => ⟨?_, ?_⟩, fun x h => ?_⟩
  · rw [hm] at h
    cases ho : oneByOne (fun last x => e.getMu z x last) last xs with
    | ok q =>
      rw [ho] at h
      cases h
      exact ⟨q.1, rfl, hc _ _ ho⟩
    | throw x => rw [ho] at h; cases h
    | ub x => rw [ho] at h; cases h
    | diverge => rw [ho] at h; cases h
  · exact ⟨strDict (g ms), by rw [hm, h]; rfl⟩
  · obtain ⟨h1, h2⟩ := oneByOne_all (P := fun m => ∃ x s l, e.getMu z x s = .ok (m, l)) (fun s x r h => ⟨x, s, r.2, h⟩) xs last ms l h
    refine ⟨h1, fun m hm => ?_⟩
    obtain ⟨x, s, l', hx⟩ := h2 m hm
    exact EPDL97.C62_sums e z x s l' m hx
  · rw [hm, h]
    rfl

/-- **C197** Without energies: the table of the element, with `str` keys; an exception of C++ is an exception. -/
theorem C197_table (e : EPDL97 K) (z : Int) (last : Nat) :
    (∀ r l, epdlMus e z none last = .value (r, l) → l = last ∧ ∃ m, e.getTable z = .ok m ∧ (∀ p ∈ r, ∃ n, p.1 = .str n) ∧
      ∀ n : String, lookup r (.str n) = m.find? n.toList) ∧
    (∀ m, e.getTable z = .ok m → ∃ r, epdlMus e z none last = .value (r, last)) ∧
    (∀ x, e.getTable z = .throw x → epdlMus e z none last = .raises (translate x)) := by
  have hm : epdlMus e z none last = (guarded (e.getTable z)).bind (fun m => .value (strDict m, last)) := rfl
  rw [hm]
  cases e.getTable z with
  | ok m =>
    refine ⟨fun r l h => ?_, fun m' _ => ⟨_, rfl⟩, fun x h => (by cases h)⟩
    cases h
    exact ⟨rfl, m, rfl, strDict_str m, lookup_strDict m⟩
  | throw x =>
    refine ⟨fun r l h => (by cases h), fun m' h => (by cases h), fun y h => ?_⟩
    cases h
    rfl
  | ub x => exact ⟨fun r l h => (by cases h), fun m' h => (by cases h), fun y h => (by cases h)⟩
  | diverge => exact ⟨fun r l h => (by cases h), fun m' h => (by cases h), fun y h => (by cases h)⟩

/-- The weights made of the coefficients. -/
def weightsOf (m : SMap Str K) : SMap Str K :=
  Element.photoShells.map (fun s => (s, if Element.at0 m "photoelectric".toList ≤ 1 / 10000000000 then 0
    else Element.at0 m s / Element.at0 m "photoelectric".toList))

/-- The copies of the coefficients. -/
def copiesOf (m : SMap Str K) : SMap Str K :=
  (m.map (fun p => ("mu ".toList ++ p.1, p.2))).foldl (fun r p => SMap.insert r p.1 p.2) []

/-- Both. -/
def bothOf (m : SMap Str K) : SMap Str K := (weightsOf m).foldl (fun r p => SMap.insert r p.1 p.2) (copiesOf m)

theorem getWeights_of (e : EPDL97 K) (z : Int) (x : K) (last : Nat) :
    e.getWeights z x last = (e.getMu z x last).bind (fun r => .ok (weightsOf r.1, r.2)) := by
  unfold EPDL97.getWeights
  cases e.getMu z x last with
  | ok r =>
    obtain ⟨m, l⟩ := r
    simp only [Outcome.ok_bind, Outcome.bind, Outcome.pure_eq, weightsOf]
    split
    · rw [Element.ofList_photo (fun _ => (0 : K))]
    · rw [Element.ofList_photo (fun s => Element.at0 m s / Element.at0 m "photoelectric".toList)]
  | throw x => rfl
  | ub u => rfl
  | diverge => rfl

theorem weightsMap_of (e : EPDL97 K) (z : Int) (x : K) (last : Nat) :
    weightsMap e z x last = (e.getMu z x last).bind (fun r => .ok (bothOf r.1, r.2)) := by
  unfold weightsMap
  cases e.getMu z x last with
  | ok r =>
    obtain ⟨m, l⟩ := r
    simp only [Outcome.ok_bind, Outcome.bind, Outcome.pure_eq, bothOf, weightsOf, copiesOf]
    split <;> rfl
  | throw x => rfl
  | ub u => rfl
  | diverge => rfl

theorem oneByOne_map {σ α β : Type} {f : σ → K → Outcome (α × σ)} {g : σ → K → Outcome (β × σ)} (t : α → β)
    (h : ∀ s x, g s x = (f s x).bind (fun r => .ok (t r.1, r.2))) (xs : List K) (s : σ) :
    oneByOne g s xs = (oneByOne f s xs).bind (fun r => .ok (r.1.map t, r.2)) := by
  induction xs generalizing s with
  | nil => rfl
  | cons x rest ih =>
    unfold oneByOne
    rw [h]
    cases f s x with
    | ok r =>
      simp only [Outcome.ok_bind, Outcome.bind]
      rw [ih]
      cases oneByOne f r.2 rest <;> rfl
    | throw x => rfl
    | ub u => rfl
    | diverge => rfl

theorem foldl_insert_keys : ∀ (l l' : SMap Str K) (m m' : SMap Str K), l.keys = l'.keys → m.keys = m'.keys →
    SMap.keys (l.foldl (fun r p => SMap.insert r p.1 p.2) m) = SMap.keys (l'.foldl (fun r p => SMap.insert r p.1 p.2) m') := by
  intro l
  induction l with
  | nil =>
    intro l' m m' hl hm
    cases l' with
    | nil => exact hm
    | cons _ _ => simp [SMap.keys] at hl
  | cons p l ih =>
    intro l' m m' hl hm
    cases l' with
    | nil => simp [SMap.keys] at hl
    | cons p' l' =>
      simp only [SMap.keys, List.map_cons, List.cons.injEq] at hl
      simp only [List.foldl_cons]
      rw [hl.1]
      exact ih l' _ _ hl.2 (EPDL97.insert_keys hm p'.1 p.2 p'.2)

theorem weightsOf_keys (m : SMap Str K) : (weightsOf m).keys = Element.photoShells := by
  simp only [weightsOf, SMap.keys, List.map_map]
  exact List.map_id _

theorem bothOf_sorted (m : SMap Str K) : (bothOf m).Sorted :=
  SMap.foldl_insert_sorted _ (SMap.foldl_insert_sorted _ SMap.sorted_nil)

theorem bothOf_keys {m m' : SMap Str K} (h : m.keys = m'.keys) : (bothOf m).keys = (bothOf m').keys := by
  refine foldl_insert_keys _ _ _ _ (by rw [weightsOf_keys, weightsOf_keys]) (foldl_insert_keys _ _ _ _ ?_ rfl)
  have : ∀ m : SMap Str K, SMap.keys (m.map (fun p => ("mu ".toList ++ p.1, p.2))) = m.keys.map (fun k => "mu ".toList ++ k) := by
    intro m
    simp [SMap.keys]
  rw [this, this, h]

theorem weightsMap_sorted {z : Int} {x : K} {s : Nat} {r : SMap Str K × Nat} (h : weightsMap e z x s = .ok r) : r.1.Sorted := by
  rw [weightsMap_of] at h
  obtain ⟨q, _, h⟩ := Outcome.bind_eq_ok.1 h
  have h := Outcome.ok.inj h
  subst h
  exact bothOf_sorted q.1

theorem weightsMap_keys {z : Int} {x x' : K} {s s' : Nat} {r r' : SMap Str K × Nat} (h : weightsMap e z x s = .ok r)
    (h' : weightsMap e z x' s' = .ok r') : r.1.keys = r'.1.keys := by
  rw [weightsMap_of] at h h'
  obtain ⟨q, hq, h⟩ := Outcome.bind_eq_ok.1 h
  obtain ⟨q', hq', h'⟩ := Outcome.bind_eq_ok.1 h'
  have h := Outcome.ok.inj h
  have h' := Outcome.ok.inj h'
  subst h
  subst h'
  show (bothOf q.1).keys = (bothOf q'.1).keys
  exact bothOf_keys (EPDL97.getMu_keys hq hq')

theorem find?_prefix (m : SMap Str K) (q : Str) :
    SMap.find? (m.map (fun p => ("mu ".toList ++ p.1, p.2))) ("mu ".toList ++ q) = m.find? q := by
  induction m with
  | nil => rfl
  | cons p m ih =>
    simp only [List.map_cons, SMap.find?_cons, ih, List.append_cancel_left_eq]
    congr

theorem copiesOf_find (m : SMap Str K) (hm : m.Sorted) (q : Str) :
    (copiesOf m).find? q = SMap.find? (m.map (fun p => ("mu ".toList ++ p.1, p.2))) q := by
  have hn : ((m.map (fun p => ("mu ".toList ++ p.1, p.2))).map Prod.fst).Nodup := by
    have : (m.map (fun p => ("mu ".toList ++ p.1, p.2))).map Prod.fst = (m.map Prod.fst).map (fun k => "mu ".toList ++ k) := by
      simp [Function.comp_def]
    rw [this]
    exact (SMap.keys_nodup hm).map (fun a b h => List.append_cancel_left h)
  unfold copiesOf
  rw [SMap.foldl_insert_find? _ _ _ hn]
  cases SMap.find? (m.map (fun p => ("mu ".toList ++ p.1, p.2))) q <;> rfl

theorem bothOf_find (m : SMap Str K) (q : Str) :
    (bothOf m).find? q = if q ∈ Element.photoShells then (weightsOf m).find? q else (copiesOf m).find? q := by
  have hn : ((weightsOf m).map Prod.fst).Nodup := by
    have : (weightsOf m).map Prod.fst = Element.photoShells := weightsOf_keys m
    rw [this]
    decide
  unfold bothOf
  rw [SMap.foldl_insert_find? _ _ _ hn, find?_keys (weightsOf m) q, weightsOf_keys]
  split
  · rename_i v h
    split at h
    · rename_i hq
      rw [if_pos hq, if_pos hq]
      exact h.symm
    · cases h
  · rename_i h
    split at h
    · cases h
    · rename_i hq
      rw [if_neg hq]

theorem mu_not_shell (q : Str) : "mu ".toList ++ q ∉ Element.photoShells := by
  intro h
  have : ∀ s ∈ Element.photoShells, s.head? ≠ some 'm' := by decide
  exact this _ h rfl

/-- **C197** getPhotoelectricWeights: a number is a list of one; for each of the energies, in order, the dictionary has the ten weights C++ gives and, named "mu ...", the
coefficients they were made of, and nothing else; an exception of C++ is an exception. -/
theorem C197_weights (e : EPDL97 K) (z : Int) (xs : List K) (last : Nat) :
    (∀ x, epdlWeights e z (.one x) last = epdlWeights e z (.many [x]) last) ∧
    (∀ ms l, oneByOne (fun last x => e.getMu z x last) last xs = .ok (ms, l) → ∃ r ws,
      epdlWeights e z (.many xs) last = .value (r, l) ∧ oneByOne (fun last x => e.getWeights z x last) last xs = .ok (ws, l) ∧
      (∀ p ∈ r, (∃ n, p.1 = .str n) ∧ p.2.length = xs.length) ∧
      (∀ i, (h : i < ms.length) → (h' : i < ws.length) →
        (∀ n : String, n.toList ∈ Element.photoShells → ∃ w, lookup r (.str n) = some w ∧ w[i]? = ws[i].find? n.toList ∧ w[i]? ≠ none) ∧
        (∀ n : String, (lookup r (.str ("mu " ++ n))).map (·[i]?) = (ms[i].find? n.toList).map some)) ∧
      ∀ n : String, n.toList ∉ Element.photoShells → (∀ n', n ≠ "mu " ++ n') → lookup r (.str n) = none) ∧
    (∀ x, oneByOne (fun last x => e.getMu z x last) last xs = .throw x → epdlWeights e z (.many xs) last = .raises (translate x)) := by
  obtain ⟨g, hg, hc⟩ := gather_collects (f := fun last x => weightsMap e z x last)
    (fun s x r h => weightsMap_sorted h) (fun s x r s' x' r' h h' => weightsMap_keys h h') last xs
  have ho := oneByOne_map (f := fun last x => e.getMu z x last) (g := fun last x => weightsMap e z x last) bothOf
    (fun s x => weightsMap_of e z x s) xs last
  have hw := oneByOne_map (f := fun last x => e.getMu z x last) (g := fun last x => e.getWeights z x last) weightsOf
    (fun s x => getWeights_of e z x s) xs last
  have hm : epdlWeights e z (.many xs) last =
      (guarded ((oneByOne (fun last x => weightsMap e z x last) last xs).bind (fun r => .ok (g r.1, r.2)))).bind
        (fun r => .value (strDict r.1, r.2)) := by
    rw [← hg]
    rfl
  refine ⟨fun x => rfl, fun ms l h => ?_, fun x h => ?_⟩
  · have ho' : oneByOne (fun last x => weightsMap e z x last) last xs = .ok (ms.map bothOf, l) := by
      rw [ho, h]
      rfl
    obtain ⟨c1, c2, c3⟩ := hc _ _ ho'
    obtain ⟨hl, hsorted⟩ := oneByOne_all (P := SMap.Sorted) (fun s x r h => EPDL97.getMu_sorted h) xs last ms l h
    refine ⟨strDict (g (ms.map bothOf)), ms.map weightsOf, ?_, ?_, fun p hp => ⟨(c2 p hp).1, ?_⟩, fun i hi hi' => ⟨fun n hn => ?_, fun n => ?_⟩,
      fun n hn hn' => ?_⟩
    · rw [hm, ho']
      rfl
    · rw [hw, h]
      rfl
    · rw [(c2 p hp).2, List.length_map, hl]
    · have := c3 i (by simpa using hi) n
      rw [List.getElem_map, bothOf_find, if_pos hn] at this
      have hs := find?_keys (weightsOf ms[i]) n.toList
      rw [weightsOf_keys, if_pos hn] at hs
      rw [hs] at this
      cases hlk : lookup (strDict (g (ms.map bothOf))) (.str n) with
      | none => rw [hlk] at this; cases this
      | some w =>
        rw [hlk] at this
        simp only [Option.map_some, Option.some.injEq] at this
        refine ⟨w, rfl, ?_, ?_⟩
        · rw [this, List.getElem_map, hs]
        · rw [this]
          exact fun h => by cases h
    · rw [c3 i (by simpa using hi), List.getElem_map, bothOf_find, String.toList_append, if_neg (mu_not_shell n.toList),
        copiesOf_find _ (hsorted _ (List.getElem_mem hi)), find?_prefix]
    · cases ms with
      | nil =>
        rw [c1 rfl]
        rfl
      | cons m rest =>
        have := c3 0 (by simp) n
        rw [List.getElem_map, bothOf_find, if_neg hn, copiesOf_find _ (hsorted _ (List.getElem_mem _)),
          (SMap.find?_eq_none_iff _ _).2] at this
        · cases hlk : lookup (strDict (g ((m :: rest).map bothOf))) (.str n) with
          | none => rfl
          | some w => rw [hlk] at this; cases this
        · intro p hp e
          obtain ⟨q, _, rfl⟩ := List.mem_map.1 hp
          refine hn' (String.ofList q.1) (String.toList_injective ?_)
          have e : "mu ".toList ++ q.1 = n.toList := e
          rw [← e, String.toList_append]
          simp
  · rw [hm, ho, h]
    rfl

/-- **C197** For an atomic number below one there is an exception, `RuntimeError`, if there are energies. -/
theorem C197_low (e : EPDL97 K) (z : Int) (hz : z < 1) (a : Arg K) (ha : a ≠ .many []) (last : Nat) :
    epdlMus e z (some a) last = .raises .runtimeError ∧ epdlMus e z none last = .raises .runtimeError ∧
    epdlWeights e z a last = .raises .runtimeError := by
  have h1 : ∀ x (xs : List K), oneByOne (fun last x => e.getMu z x last) last (x :: xs) = .throw .runtimeError := by
    intro x xs
    unfold oneByOne
    rw [(EPDL97.C51_low_rejected e z hz x last []).1]
    rfl
  have h3 := (C197_table e z last).2.2 _ (EPDL97.C51_low_rejected e z hz 0 last []).2.2.1
  cases a with
  | one x =>
    rw [(C197_coefficients e z [] last).1, (C197_weights e z [] last).1]
    exact ⟨(C197_coefficients e z [x] last).2.2.2 _ (h1 x []), h3, (C197_weights e z [x] last).2.2 _ (h1 x [])⟩
  | many xs =>
    cases xs with
    | nil => exact absurd rfl ha
    | cons x xs => exact ⟨(C197_coefficients e z (x :: xs) last).2.2.2 _ (h1 x xs), h3, (C197_weights e z (x :: xs) last).2.2 _ (h1 x xs)⟩

end proofs

/-! ## Examples -/

section examples

attribute [local instance] Element.exampleTrans Library.exampleTrig

/-- One directory with files, in `ℚ`. -/
def exampleFiles : String → Option (List (Scan ℚ)) × Option (List (Scan ℚ)) := fun n =>
  if n = "data" then (some [EPDL97.exampleBinding], some (List.replicate 99 EPDL97.exampleScan)) else (none, none)

/-- The object with the files of that directory. -/
def exampleEpdl : EPDL97 ℚ := EPDL97.run [.setDataDirectory (exampleFiles "data").1 (exampleFiles "data").2]

example : (match newEpdl exampleFiles (.str "data") none with | .value e => e.initialized | _ => false) = true := by decide +kernel

example : newEpdl exampleFiles (.str "data") (some (.str "")) = .raises .indexError := by decide +kernel

example : (match newEpdl exampleFiles (.str "data") (some (.bytes "none")) with | .raises _ => true | _ => false) = true := by decide +kernel

/-- The hypotheses of `C196_binding_partial` are met. -/
example : (1 : Int) ≤ 5 ∧ (5 : Int) ≤ exampleEpdl.binding.length ∧
    (∀ t ∈ ([(Text.bytes "K", (3 : ℚ)), (.bytes "L1", 1)] : List (Text × ℚ)).map Prod.fst, t.IsBytes) := by
  refine ⟨by decide, by decide +kernel, ?_⟩
  intro t ht
  simp only [List.map_cons, List.map_nil, List.mem_cons, List.not_mem_nil, or_false] at ht
  rcases ht with rfl | rfl <;> exact ⟨_, rfl⟩

/-- There are coefficients and weights for two energies. -/
example : (match oneByOne (fun last x => exampleEpdl.getMu 20 x last) 0 [2, 3] with | .ok r => r.1.length | _ => 0) = 2 := by decide +kernel

example : (match epdlWeights exampleEpdl 20 (.many [2, 3]) 0 with
    | .value r => (lookup r.1 (.str "K")).isSome && (lookup r.1 (.str "mu coherent")).isSome && !(lookup r.1 (.str "coherent")).isSome
    | _ => false) = true := by decide +kernel

end examples

end Python
end Fisx
