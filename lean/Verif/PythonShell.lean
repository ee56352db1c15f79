import Verif.PythonMore
import Verif.ShellProps
import Verif.TransmissionTableProps
import Verif.IniProps

/-!
# PyShell, PySimpleIni and PyTransmissionTable (C188, C189)

The interface is the one of Python 3.
-/

set_option linter.unusedSectionVars false

namespace Fisx
namespace Python

/-- Access to a dictionary by a key; `none` is `KeyError`. A `str` and a `bytes` object are never equal. -/
def lookup {V : Type} (d : List (Text × V)) (k : Text) : Option V := (d.find? (fun p => p.1 = k)).map Prod.snd

/-- python/cython/default/_fisx.cpp, `__pyx_convert_map_to_py_std_3a__3a_string____double`: a map of C++ becomes a dictionary
whose keys are `bytes`. -/
def bytesDict {V : Type} (m : SMap Str V) : List (Text × V) := m.map (fun p => (Text.bytes (String.ofList p.1), p.2))

section shell

variable {K : Type} [Field K] [LinearOrder K] [IsStrictOrderedRing K]

/-- PyShell.pyx:40-42: a new shell. -/
def newShell (name : Text) : Result (Shell K) := do
  let n ← stdString (toBytes name)
  guarded (Shell.mk? n.toList)

/-- PyShell.pyx:47-50, `setRadiativeTransitions`. -/
def shellSetRadiative (s : Shell K) (transitions : List Text) (values : List K) : Result Unit × Shell K :=
  onState (stdStrings (transitions.map some)) s (fun ls =>
    let r := s.setRadiative (ls.map String.toList) values
    (guarded r.1, r.2))

/-- PyShell.pyx:52-55, `setNonradiativeTransitions`. -/
def shellSetNonradiative (s : Shell K) (transitions : List Text) (values : List K) : Result Unit × Shell K :=
  onState (stdStrings (transitions.map some)) s (fun ls =>
    let r := s.setNonradiative (ls.map String.toList) values
    (guarded r.1, r.2))

/-- PyShell.pyx:75-78, `setShellConstants`. -/
def shellSetConstants (s : Shell K) (d : List (Text × K)) : Result Unit × Shell K :=
  onState (stdMap (toBytesKeys d)) s (fun m =>
    let r := s.setShellConstants (SMap.ofList (m.map (fun p => (p.1.toList, p.2))))
    (guarded r.1, r.2))

/-- PyShell.pyx:57-58, `getAugerRatios`. -/
def shellAuger (s : Shell K) : List (Text × K) := bytesDict s.auger

/-- PyShell.pyx:60-61, `getCosterKronigRatios`. -/
def shellCosterKronig (s : Shell K) : List (Text × List (Text × K)) :=
  (bytesDict s.ck).map (fun p => (p.1, bytesDict p.2))

/-- PyShell.pyx:63-64, `getFluorescenceRatios`. -/
def shellFluorescence (s : Shell K) : List (Text × K) := bytesDict s.fluorescence

/-- PyShell.pyx:66-67, `getRadiativeTransitions`. -/
def shellRadiative (s : Shell K) : List (Text × K) := bytesDict s.radiative

/-- PyShell.pyx:69-70, `getNonradiativeTransitions`. -/
def shellNonradiative (s : Shell K) : List (Text × K) := bytesDict s.nonradiative

/-- PyShell.pyx:80-81, `getShellConstants`. -/
def shellConstants (s : Shell K) : List (Text × K) := bytesDict s.constants

/-- PyShell.pyx:72-73, `getDirectVacancyTransferRatios`. -/
def shellTransfer (s : Shell K) (subshell : Text) : Result (Shell.Transfer K) := do
  let n ← stdString (toBytes subshell)
  guarded (s.getDirectVacancyTransferRatios n.toList)

theorem lookup_bytes {V : Type} (m : SMap Str V) (n : String) : lookup (bytesDict m) (.bytes n) = m.find? n.toList := by
  induction m with
  | nil => rfl
  | cons p m ih =>
    rw [SMap.find?_cons, ← ih]
    by_cases h : p.1 = n.toList
    · simp [lookup, bytesDict, h]
    · have h' : ¬ String.ofList p.1 = n := fun e => h (by rw [← e]; simp)
      simp [lookup, bytesDict, h, h']

theorem lookup_str {V : Type} (m : SMap Str V) (n : String) : lookup (bytesDict m) (.str n) = none := by
  unfold lookup
  rw [Option.map_eq_none_iff, List.find?_eq_none]
  intro p hp
  obtain ⟨q, _, rfl⟩ := List.mem_map.1 hp
  simp

/-- **C188** Names given to a shell as `str`, as `bytes` or mixed mean the same names: the shell becomes the one of C++ with
these names, and an exception of C++ is raised in Python. -/
theorem C188_setters (s : Shell K) (names : List Text) (values : List K) :
    shellSetRadiative s names values = (guarded (s.setRadiative (names.map (fun t => t.get.toList)) values).1,
      (s.setRadiative (names.map (fun t => t.get.toList)) values).2) ∧
    shellSetNonradiative s names values = (guarded (s.setNonradiative (names.map (fun t => t.get.toList)) values).1,
      (s.setNonradiative (names.map (fun t => t.get.toList)) values).2) ∧
    (∀ t : Text, newShell (K := K) t = guarded (Shell.mk? t.get.toList)) ∧
    (∀ t : Text, shellTransfer s t = guarded (s.getDirectVacancyTransferRatios t.get.toList)) := by
  have e : (names.map Text.get).map String.toList = names.map (fun t => t.get.toList) := by
    rw [List.map_map]; rfl
  refine ⟨?_, ?_, fun t => ?_, fun t => ?_⟩
  · unfold shellSetRadiative
    rw [stdStrings_some, ← e]
    rfl
  · unfold shellSetNonradiative
    rw [stdStrings_some, ← e]
    rfl
  · unfold newShell
    rw [stdString_toBytes]
    rfl
  · unfold shellTransfer
    rw [stdString_toBytes]
    rfl

theorem perm_find {V : Type} {m : List (Str × V)} {l : List (Str × V)} (hp : m.Perm l)
    (hnd : (l.map Prod.fst).Nodup) (k : Str) : SMap.find? m k = SMap.find? l k := by
  have hm : (m.map Prod.fst).Nodup := (hp.map Prod.fst).nodup_iff.2 hnd
  cases h : SMap.find? l k with
  | none =>
    rw [SMap.find?_eq_none_iff] at h ⊢
    exact fun e he => h e (hp.subset he)
  | some v => exact SMap.find?_of_mem_nodup hm (hp.symm.subset (SMap.mem_of_find? h))

/-- **C188** Constants given as a dictionary of different names, `str` or `bytes`, are handed over to C++ under these names,
each with its value, and no others. -/
theorem C188_constants (s : Shell K) (d : List (Text × K)) (hd : (d.map (fun p => p.1.get)).Nodup) :
    ∃ m : SMap Str K, SMap.Sorted m ∧ (∀ n v, m.find? n = some v ↔ ∃ t, (t, v) ∈ d ∧ t.get.toList = n) ∧
      shellSetConstants s d = (guarded (s.setShellConstants m).1, (s.setShellConstants m).2) := by
  obtain ⟨m, h1, _, h3⟩ := stdMap_perm d hd
  set l : List (Str × K) := m.map (fun p => (p.1.toList, p.2)) with hl
  have hp : l.Perm (d.map (fun p => (p.1.get.toList, p.2))) := by
    have := h3.map (fun p : String × K => (p.1.toList, p.2))
    rwa [List.map_map] at this
  have hk : ((d.map (fun p => (p.1.get.toList, p.2))).map Prod.fst).Nodup := by
    have e : (d.map (fun p => (p.1.get.toList, p.2))).map Prod.fst = (d.map (fun p => p.1.get)).map String.toList := by
      simp [List.map_map, Function.comp_def]
    rw [e]
    exact hd.map (fun a b h => String.ext h)
  have hkl : (l.map Prod.fst).Nodup := (hp.map Prod.fst).nodup_iff.2 hk
  refine ⟨SMap.ofList l, SMap.ofList_sorted _, fun n v => ?_, ?_⟩
  · have hf : SMap.find? (SMap.ofList l) n = SMap.find? (d.map (fun p => (p.1.get.toList, p.2))) n := by
      rw [← perm_find hp hk]
      unfold SMap.ofList
      rw [SMap.foldl_insert_find? l [] n hkl]
      cases SMap.find? l n <;> rfl
    rw [hf]
    constructor
    · intro h
      obtain ⟨p, hp, e⟩ := List.mem_map.1 (SMap.mem_of_find? h)
      cases e
      exact ⟨p.1, hp, rfl⟩
    · rintro ⟨t, ht, rfl⟩
      exact SMap.find?_of_mem_nodup hk (List.mem_map.2 ⟨(t, v), ht, rfl⟩)
  · unfold shellSetConstants
    rw [h1]
    rfl

/-- **C188** (partial) Every dictionary that a shell gives back has, under each name as `bytes`, what the shell has under
this name. -/
theorem C188_getters_partial (s : Shell K) (n : String) :
    lookup (shellRadiative s) (.bytes n) = s.radiative.find? n.toList ∧
    lookup (shellNonradiative s) (.bytes n) = s.nonradiative.find? n.toList ∧
    lookup (shellFluorescence s) (.bytes n) = s.fluorescence.find? n.toList ∧
    lookup (shellAuger s) (.bytes n) = s.auger.find? n.toList ∧
    lookup (shellConstants s) (.bytes n) = s.constants.find? n.toList ∧
    lookup (shellCosterKronig s) (.bytes n) = (s.ck.find? n.toList).map bytesDict := by
  refine ⟨lookup_bytes _ _, lookup_bytes _ _, lookup_bytes _ _, lookup_bytes _ _, lookup_bytes _ _, ?_⟩
  rw [← lookup_bytes]
  unfold lookup shellCosterKronig
  rw [List.find?_map]
  simp [Function.comp_def, Option.map_map]

/-- **C188** (violated) No name given as `str` is found in what a shell gives back, whatever the shell: the names that its
own setters accept raise `KeyError`. -/
theorem C188_getters_violated (s : Shell K) (n : String) :
    lookup (shellRadiative s) (.str n) = none ∧ lookup (shellNonradiative s) (.str n) = none ∧
    lookup (shellFluorescence s) (.str n) = none ∧ lookup (shellAuger s) (.str n) = none ∧
    lookup (shellConstants s) (.str n) = none ∧ lookup (shellCosterKronig s) (.str n) = none := by
  refine ⟨lookup_str _ _, lookup_str _ _, lookup_str _ _, lookup_str _ _, lookup_str _ _, ?_⟩
  unfold lookup shellCosterKronig
  rw [Option.map_eq_none_iff, List.find?_eq_none]
  intro p hp
  obtain ⟨q, hq, rfl⟩ := List.mem_map.1 hp
  obtain ⟨q', _, rfl⟩ := List.mem_map.1 hq
  simp

/-- A K shell with one transition: the setter takes the name as `str`, the getter has it as `bytes` only. -/
example : ∃ s0 s1 : Shell ℚ, newShell (.str "K") = .value s0 ∧
    shellSetRadiative s0 [.str "KL3"] [1] = (.value (), s1) ∧
    lookup (shellRadiative s1) (.bytes "KL3") = some 1 ∧ lookup (shellRadiative s1) (.str "KL3") = none := by
  refine ⟨_, _, rfl, rfl, ?_, ?_⟩ <;> decide

/-! ### Ini files -/

/-- PySimpleIni.pyx:48-49, `getKeys`: the names of the sections. -/
def iniKeys (r : Ini.Reader) : List Text := (Ini.getSections r).map (fun s => Text.bytes (String.ofList s))

/-- PySimpleIni.pyx:51-53, fisx_simpleini.h:63-64: `readKey`, case sensitive. -/
def iniRead (r : Ini.Reader) (key : Text) : Result (List (Text × Text)) := do
  let k ← stdString (toBytes key)
  return (Ini.readSection r k.toList true).1.map (fun p => (Text.bytes (String.ofList p.1), Text.bytes (String.ofList p.2)))

/-- **C188** (partial) The sections of an ini file can be read with the names that getKeys returns (all, in their order), or with the same names as
`str`; the keys and the values are those of the section, as `bytes`. -/
theorem C188_ini_partial (r : Ini.Reader) (k : Text) (n : String) :
    ∃ d, iniRead r k = .value d ∧
      lookup d (.bytes n) = ((((r.contents.find? k.get.toList).getD []).find? n.toList).map (fun v => Text.bytes (String.ofList v))) ∧
      lookup d (.str n) = none ∧
      (iniKeys r).length = r.sections.length ∧
      ∀ i : Nat, (iniKeys r)[i]? = r.sections[i]?.map (fun s => .bytes (String.ofList s)) := by
  have e : (Ini.readSection r k.get.toList true).1 = (r.contents.find? k.get.toList).getD [] := by
    unfold Ini.readSection
    cases r.contents.find? k.get.toList <;> rfl
  refine ⟨_, by unfold iniRead; rw [stdString_toBytes]; rfl, ?_, ?_, ?_⟩
  · rw [e]
    generalize (r.contents.find? k.get.toList).getD [] = m
    rw [← lookup_bytes]
    unfold lookup bytesDict
    simp [List.find?_map, Function.comp_def, Option.map_map]
  · unfold lookup
    rw [Option.map_eq_none_iff, List.find?_eq_none]
    intro p hp
    obtain ⟨q, _, rfl⟩ := List.mem_map.1 hp
    simp
  · simp [iniKeys, Ini.getSections]

/-- A reader with one section. -/
example : ∃ d, iniRead { sections := ["a".toList], contents := [("a".toList, [("k".toList, "v".toList)])] } (.str "a")
    = .value d ∧ lookup d (.bytes "k") = some (.bytes "v") :=
  ⟨_, rfl, by decide⟩

/-- Constants given with one name as `str` and one as `bytes`. -/
example : ∃ s0 s1 : Shell ℚ, newShell (.str "L1") = .value s0 ∧
    shellSetConstants s0 [(.str "omega", 1 / 10), (.bytes "f12", 1 / 5)] = (.value (), s1) ∧
    lookup (shellConstants s1) (.bytes "omega") = some (1 / 10) ∧ lookup (shellConstants s1) (.bytes "f12") = some (1 / 5) := by
  refine ⟨_, _, rfl, rfl, ?_, ?_⟩ <;> decide +kernel

end shell

/-! ## C189: transmission tables -/

section table

variable {K : Type} [Field K] [LinearOrder K] [IsStrictOrderedRing K]

/-- PyTransmissionTable.pyx:47-48. -/
def tableName (t : TransmissionTable K) : Text := toStr (.bytes t.name)

/-- PyTransmissionTable.pyx:54-55. -/
def tableComment (t : TransmissionTable K) : Text := toStr (.bytes t.comment)

/-- PyTransmissionTable.pyx:50-52. -/
def tableSetName (t : TransmissionTable K) (n : Text) : Result Unit × TransmissionTable K :=
  onState (stdString (toBytes n)) t (fun s => (.value (), t.setName s))

/-- PyTransmissionTable.pyx:57-59. -/
def tableSetComment (t : TransmissionTable K) (n : Text) : Result Unit × TransmissionTable K :=
  onState (stdString (toBytes n)) t (fun s => (.value (), t.setComment s))

/-- PyTransmissionTable.pyx:61-71, `setTransmissionTableFromLists`. -/
def tableSetLists (t : TransmissionTable K) (energy transmission : List K) (name comment : Text) :
    Result Unit × TransmissionTable K :=
  onState (stdString (toBytes name)) t (fun n => onState (stdString (toBytes comment)) t (fun c =>
    let r := t.setLists energy transmission n c
    (guarded r.1, r.2)))

/-- PyTransmissionTable.pyx:73-81, `setTransmissionTable`, with the items of the dictionary. -/
def tableSetDict (t : TransmissionTable K) (d : List (K × K)) (name comment : Text) :
    Result Unit × TransmissionTable K :=
  onState (stdString (toBytes name)) t (fun n => onState (stdString (toBytes comment)) t (fun c =>
    let r := t.setMap (SMap.ofList d) n c
    (guarded r.1, r.2)))

/-- PyTransmissionTable.pyx:86-96, `getTransmission`. -/
def tableTransmission (t : TransmissionTable K) : Arg K → Arg K
  | .one e => .one (t.getTransmission e)
  | .many es => .many (t.getTransmissions es)

/-- **C189** Names and comments given as `str` or `bytes` come back as `str`, and setting one changes nothing else. -/
theorem C189_names (t : TransmissionTable K) (n : Text) :
    ∃ t1 t2, tableSetName t n = (.value (), t1) ∧ tableName t1 = .str n.get ∧ tableComment t1 = tableComment t ∧
      t1.table = t.table ∧
      tableSetComment t n = (.value (), t2) ∧ tableComment t2 = .str n.get ∧ tableName t2 = tableName t ∧
      t2.table = t.table := by
  refine ⟨t.setName n.get, t.setComment n.get, ?_, rfl, rfl, rfl, ?_, rfl, rfl, rfl⟩
  · unfold tableSetName; rw [stdString_toBytes]; rfl
  · unfold tableSetComment; rw [stdString_toBytes]; rfl

/-- **C189** A table given from Python is accepted, or `ValueError` is raised and the table stays as it was. -/
theorem C189_accepted_or_unchanged (t : TransmissionTable K) (energy transmission : List K) (d : List (K × K))
    (name comment : Text) :
    ((tableSetLists t energy transmission name comment).1 = .value () ∨
      tableSetLists t energy transmission name comment = (.raises .valueError, t)) ∧
    ((tableSetDict t d name comment).1 = .value () ∨ tableSetDict t d name comment = (.raises .valueError, t)) := by
  constructor
  · unfold tableSetLists
    simp only [stdString_toBytes, onState, TransmissionTable.setLists]
    split
    · exact Or.inr rfl
    · split
      · exact Or.inr rfl
      · split
        · exact Or.inr rfl
        · exact Or.inl rfl
  · unfold tableSetDict
    simp only [stdString_toBytes, onState, TransmissionTable.setMap]
    split
    · exact Or.inr rfl
    · split
      · exact Or.inr rfl
      · exact Or.inl rfl

theorem fill_sorted : ∀ (l m : List (K × K)), SMap.Sorted (m ++ l) → TransmissionTable.fill l m = m ++ l
  | [], m, _ => by simp [TransmissionTable.fill]
  | p :: l, m, h => by
    have hlt : ∀ x ∈ m, x.1 < p.1 := fun x hx => (List.pairwise_append.1 h).2.2 x hx p List.mem_cons_self
    have hn : SMap.find? m p.1 = none := by
      rw [SMap.find?_eq_none_iff]
      exact fun e he => (hlt e he).ne
    have hm : SMap.mem m p.1 = false := by simp [SMap.mem, hn]
    have h' : SMap.Sorted ((m ++ [p]) ++ l) := by simpa using h
    have := fill_sorted l (m ++ [p]) h'
    unfold TransmissionTable.fill at this ⊢
    rw [List.foldl_cons, hm]
    simp only [Bool.false_eq_true, if_false]
    rw [SMap.insert_append_last hlt, this]
    simp

/-- **C189** A dictionary of energies and transmissions and the two lists of its items in ascending order of the energies do
the same. -/
theorem C189_dict_lists (t : TransmissionTable K) (d : List (K × K)) (name comment : Text) :
    tableSetDict t d name comment =
      tableSetLists t ((SMap.ofList d).map Prod.fst) ((SMap.ofList d).map Prod.snd) name comment := by
  have hz : ((SMap.ofList d).map Prod.fst).zip ((SMap.ofList d).map Prod.snd) = SMap.ofList d := by
    rw [List.zip_map']; simp
  have hf : TransmissionTable.fill (SMap.ofList d) [] = SMap.ofList d := by
    rw [fill_sorted _ [] (by simpa using SMap.ofList_sorted d)]
    simp
  unfold tableSetDict tableSetLists
  simp only [stdString_toBytes, onState, TransmissionTable.setMap, TransmissionTable.setLists, hz, hf, List.length_map,
    ne_eq, not_true_eq_false, if_false]
  by_cases h1 : TransmissionTable.renames t name.get comment.get = true <;>
    by_cases h2 : TransmissionTable.checkRows (SMap.ofList d) (-1) = true <;> simp [h1, h2]

/-- **C189** getTransmission of a list has the answer of each energy, in the order of the list; of a number, the answer of
this energy. -/
theorem C189_transmission (t : TransmissionTable K) (es : List K) :
    ∃ ts, tableTransmission t (.many es) = .many ts ∧ ts.length = es.length ∧
      ∀ (i : Nat) (hi : i < es.length), tableTransmission t (.one es[i]) = .one (ts.getD i 0) := by
  refine ⟨_, rfl, by simp [TransmissionTable.getTransmissions], fun i hi => ?_⟩
  simp [tableTransmission, TransmissionTable.getTransmissions, hi]

/-- A table of two energies from a dictionary in any order. -/
example : ∃ t, tableSetDict (TransmissionTable.new "" "" : TransmissionTable ℚ) [(2, 1), (1, 0)] (.str "a") (.str "")
      = (.value (), t) ∧ tableTransmission t (.many [3 / 2, 5]) = .many [1 / 2, 1] ∧ tableName t = .str "a" := by
  refine ⟨_, rfl, ?_, rfl⟩
  decide +kernel

end table

end Python
end Fisx
