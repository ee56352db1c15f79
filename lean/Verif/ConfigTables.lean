import Verif.ConfigGeometry

/-!
# The user tables of a configuration file (C167)

The sections `[UserBeamFilters.…]` and `[UserAttenuators.…]`.
-/

set_option linter.unusedSectionVars false

namespace Fisx
namespace Config

variable {K R : Type} [Field K] [LinearOrder K]
variable (setArea : Detector K R → K → Outcome Unit × Detector K R) (sort : List (Ray K) → List (Ray K))
variable (cv : Conv K)

/-- The keys of the section of a table. -/
def isEnergy (k : Str) : Bool := k == "ENERGY".toList
/-- Transmission. -/
def isTransmission (k : Str) : Bool := k == "TRANSMISSION".toList
/-- Switch. -/
def isUse (k : Str) : Bool := k == "USE".toList
/-- Any other key is a comment. -/
def isRemark (k : Str) : Bool := !(isEnergy k || isTransmission k || isUse k)

/-- The table is switched on. -/
def InUse (cv : Conv K) (m : SMap Str Str) : Prop := ∃ t n, lastWith isUse m = some t ∧ cv.num t = some n ∧ 0 < n

/-- The table is the one its section describes: the name after the (first) dot, the comment, and the lists of energies and
transmissions given to `setTransmissionTable` of a new table. -/
structure TableOf (cv : Conv K) (name : Str) (m : SMap Str Str) (t : TransmissionTable K) : Prop where
  lists : ∃ n e tr, (Ini.multipleValues Ini.word '.' [] name)[1]? = some n ∧ lastWith isEnergy m = some e ∧
    lastWith isTransmission m = some tr ∧
    (TransmissionTable.new "" "").setLists (Ini.multipleValues cv.num ',' (-1) e) (Ini.multipleValues cv.num ',' (-1) tr)
      (String.ofList n) (String.ofList ((lastWith isRemark m).getD [])) = (.ok (), t)

theorem tabEntry_energy (v : TabVars K) (e : Str × Str) :
    (tabEntry cv v e).energy = if isEnergy e.1.upper then Ini.multipleValues cv.num ',' (-1) e.2 else v.energy := by
  unfold tabEntry isEnergy
  dsimp only
  by_cases h : e.1.upper = "ENERGY".toList
  · simp [h]
  · rw [if_neg h]
    simp only [beq_iff_eq, h, if_false]
    split_ifs <;> rfl

theorem tabEntry_transmission (v : TabVars K) (e : Str × Str) :
    (tabEntry cv v e).transmission = if isTransmission e.1.upper then Ini.multipleValues cv.num ',' (-1) e.2 else v.transmission := by
  unfold tabEntry isTransmission
  dsimp only
  by_cases h : e.1.upper = "TRANSMISSION".toList
  · rw [h, if_neg (by decide)]; simp
  · simp only [beq_iff_eq, h, if_false]
    split_ifs <;> rfl

theorem tabEntry_use (v : TabVars K) (e : Str × Str) :
    (tabEntry cv v e).useFlag = if isUse e.1.upper then (cv.num e.2).getD 0 else v.useFlag := by
  unfold tabEntry isUse
  dsimp only
  by_cases h : e.1.upper = "USE".toList
  · rw [h, if_neg (by decide), if_neg (by decide)]; simp
  · simp only [beq_iff_eq, h, if_false]
    split_ifs <;> rfl

theorem tabEntry_comment (v : TabVars K) (e : Str × Str) :
    (tabEntry cv v e).comment = if isRemark e.1.upper then e.2 else v.comment := by
  unfold tabEntry isRemark isEnergy isTransmission isUse
  dsimp only
  by_cases h1 : e.1.upper = "ENERGY".toList
  · simp [h1]
  by_cases h2 : e.1.upper = "TRANSMISSION".toList
  · simp [h2]
  by_cases h3 : e.1.upper = "USE".toList
  · simp [h3]
  · have e1 : (e.1.upper == "ENERGY".toList) = false := by simpa using h1
    have e2 : (e.1.upper == "TRANSMISSION".toList) = false := by simpa using h2
    have e3 : (e.1.upper == "USE".toList) = false := by simpa using h3
    rw [if_neg h1, if_neg h2, if_neg h3, e1, e2, e3]
    simp

theorem tabMake_spec {name : Str} {v : TabVars K} {t : TransmissionTable K} (h : tabMake name v = .ok t) :
    ∃ n, (Ini.multipleValues Ini.word '.' [] name)[1]? = some n ∧
      (TransmissionTable.new "" "").setLists v.energy v.transmission (String.ofList n) (String.ofList v.comment) = (.ok (), t) := by
  unfold tabMake at h
  obtain ⟨n, hn, h⟩ := Outcome.bind_eq_ok.1 h
  unfold secondName at hn
  obtain ⟨n', hn', hn⟩ := Outcome.bind_eq_ok.1 hn
  simp only [Outcome.pure_eq, Outcome.ok.injEq] at hn
  subst hn
  refine ⟨n', vget_ok hn', ?_⟩
  split at h
  · next heq =>
    simp only [Outcome.ok.injEq] at h
    rw [← h]; exact heq
  all_goals simp at h

open Classical in
theorem tabLoop_spec {r : Ini.Reader} {ss : List Str} {v : TabVars K} {done ts : List (TransmissionTable K)}
    (hc : ∀ s ∈ ss, InUse cv (Ini.readSection r s true).1 →
      lastWith isEnergy (Ini.readSection r s true).1 ≠ none ∧ lastWith isTransmission (Ini.readSection r s true).1 ≠ none)
    (h : tabLoop cv r ss v done = (.ok (), ts)) :
    ∃ ts', ts = done ++ ts' ∧ List.Forall₂ (fun s t => TableOf cv s (Ini.readSection r s true).1 t)
      (ss.filter (fun s => InUse cv (Ini.readSection r s true).1)) ts' := by
  induction ss generalizing v done with
  | nil =>
    simp only [tabLoop, Prod.mk.injEq, true_and] at h
    exact ⟨[], by simp [h], List.Forall₂.nil⟩
  | cons s t ih =>
    rw [tabLoop] at h
    have ih := fun {v done} => ih (v := v) (done := done) (fun x hx => hc x (List.mem_cons_of_mem _ hx))
    generalize hm : (Ini.readSection r s true).1 = m at h
    have hcs := hc s (List.mem_cons_self ..)
    rw [hm] at hcs
    have e1 := foldl_last (tabEntry cv) TabVars.energy isEnergy (fun t => Ini.multipleValues cv.num ',' (-1) t)
      (tabEntry_energy cv) m { v with useFlag := 0, comment := [] }
    have e2 := foldl_last (tabEntry cv) TabVars.transmission isTransmission (fun t => Ini.multipleValues cv.num ',' (-1) t)
      (tabEntry_transmission cv) m { v with useFlag := 0, comment := [] }
    have e3 := foldl_last (tabEntry cv) TabVars.useFlag isUse (fun t => (cv.num t).getD 0)
      (tabEntry_use cv) m { v with useFlag := 0, comment := [] }
    have e4 := foldl_last (tabEntry cv) TabVars.comment isRemark (fun t => t)
      (tabEntry_comment cv) m { v with useFlag := 0, comment := [] }
    have hflag : (m.foldl (tabEntry cv) { v with useFlag := 0, comment := [] }).useFlag > 0 ↔ InUse cv m := by
      rw [e3]
      unfold InUse
      cases hu : lastWith isUse m with
      | none => simp
      | some x =>
        cases hn : cv.num x with
        | none => simp [hn]
        | some n => simp [hn]
    by_cases hu : InUse cv m
    · rw [if_pos (hflag.2 hu)] at h
      obtain ⟨c1, c2⟩ := hcs hu
      obtain ⟨t1, h1⟩ := Option.ne_none_iff_exists'.1 c1
      obtain ⟨t2, h2⟩ := Option.ne_none_iff_exists'.1 c2
      rw [h1] at e1; rw [h2] at e2
      dsimp only at e1 e2
      have e4' : (m.foldl (tabEntry cv) { v with useFlag := 0, comment := [] }).comment = (lastWith isRemark m).getD [] := by
        rw [e4]
        cases lastWith isRemark m <;> rfl
      cases hk : tabMake s (m.foldl (tabEntry cv) { v with useFlag := 0, comment := [] }) with
      | ok tab =>
        rw [hk] at h
        obtain ⟨ts', k1, k2⟩ := ih h
        rw [List.filter_cons_of_pos (by simpa [hm] using hu)]
        refine ⟨tab :: ts', by rw [k1]; simp, List.Forall₂.cons ?_ k2⟩
        obtain ⟨n, n1, n2⟩ := tabMake_spec hk
        rw [e1, e2, e4'] at n2
        rw [hm]
        exact ⟨n, t1, t2, n1, h1, h2, n2⟩
      | throw e => rw [hk] at h; simp at h
      | ub u => rw [hk] at h; simp at h
      | diverge => rw [hk] at h; simp at h
    · rw [if_neg (fun x => hu (hflag.1 x))] at h
      rw [List.filter_cons_of_neg (by simpa [hm] using hu)]
      exact ih h

/-- The section of a table that is switched on gives both lists. -/
def GivesLists (cv : Conv K) (m : SMap Str Str) : Prop :=
  InUse cv m → lastWith isEnergy m ≠ none ∧ lastWith isTransmission m ≠ none

open Classical in
/-- **C167** (missing: sections without one of the lists, which take it from the section before) If every table that is switched on gives
its energies and its transmissions, then after reading a file the user beam filters are exactly those of the sections
`[UserBeamFilters.…]` that are switched on, and the user attenuators those of the sections `[UserAttenuators.…]`, in the order of the
file, each described by its own section only. -/
theorem C167_tables_partial {c c' : Config K R} {text : Str}
    (h : read setArea sort cv c (some text) = (.ok (), c')) :
    ∃ r, Ini.read Ini.new (some text) = (.ok (), r) ∧
      ((∀ s ∈ Ini.getSubsections r "UserBeamFilters".toList false, GivesLists cv (Ini.readSection r s true).1) →
        List.Forall₂ (fun s t => TableOf cv s (Ini.readSection r s true).1 t)
          ((Ini.getSubsections r "UserBeamFilters".toList false).filter (fun s => InUse cv (Ini.readSection r s true).1))
          c'.userBeamFilters) ∧
      ((∀ s ∈ Ini.getSubsections r "UserAttenuators".toList false, GivesLists cv (Ini.readSection r s true).1) →
        List.Forall₂ (fun s t => TableOf cv s (Ini.readSection r s true).1 t)
          ((Ini.getSubsections r "UserAttenuators".toList false).filter (fun s => InUse cv (Ini.readSection r s true).1))
          c'.userAttenuators) := by
  obtain ⟨r0, r, fit, b, c1, s, sample, H⟩ := read_ok setArea sort cv h
  obtain ⟨hs1, hs2⟩ := fitSection_same H.hfit
  obtain ⟨d, hd⟩ := H.result
  obtain ⟨-, -, k3, k4⟩ := attLoop_keeps cv H.att
  refine ⟨r0, H.ini, fun hc => ?_, fun hc => ?_⟩
  · have hsub := getSubsections_congr hs1 "UserBeamFilters".toList false
    have hm := H.userFilters
    rw [hsub] at hm
    obtain ⟨ms', h1, h2⟩ := tabLoop_spec cv (fun x hx => by rw [hs2]; exact hc x hx) hm
    have hfin : c'.userBeamFilters = c1.userBeamFilters := by rw [hd]; exact k3
    rw [hfin, h1, List.nil_append]
    simpa only [hs2] using h2
  · have hsub := getSubsections_congr hs1 "UserAttenuators".toList false
    have hm := H.userAttenuators
    rw [hsub] at hm
    obtain ⟨ms', h1, h2⟩ := tabLoop_spec cv (fun x hx => by rw [hs2]; exact hc x hx) hm
    have hfin : c'.userAttenuators = c1.userAttenuators := by rw [hd]; exact k4
    rw [hfin, h1, List.nil_append]
    simpa only [hs2] using h2

/-- **C167** is false without the condition: the second table has the energies of the first one, although its section gives none. -/
theorem C167_tables_violated :
    (readText ("[fit]\nenergy=10\n[UserAttenuators.A]\nenergy=1,2\ntransmission=0,1\nuse=1\n" ++
        "[UserAttenuators.B]\ntransmission=1,0\nuse=1\n[attenuators]\nx=0\n")).1 = .ok () ∧
    (readText ("[fit]\nenergy=10\n[UserAttenuators.A]\nenergy=1,2\ntransmission=0,1\nuse=1\n" ++
        "[UserAttenuators.B]\ntransmission=1,0\nuse=1\n[attenuators]\nx=0\n")).2.userAttenuators.map
      (fun t => (t.name, t.table)) = [("A", [(1, 0), (2, 1)]), ("B", [(1, 1), (2, 0)])] := by decide +kernel

/-- A file that meets the condition: one of two tables is switched on. -/
def tableFile : String :=
  "[fit]\nenergy=10\n[UserAttenuators.A]\nenergy=1,2\ntransmission=0,1\nuse=1\nremark=glass\n" ++
  "[UserAttenuators.B]\nuse=0\n[attenuators]\nx=0\n"

/-- The hypotheses of `C167_tables_partial` are met. -/
example : (readText tableFile).1 = .ok () ∧
    (Ini.getSubsections (Ini.read Ini.new (some tableFile.toList)).2 "UserAttenuators".toList false).map
      (fun s => let m := (Ini.readSection (Ini.read Ini.new (some tableFile.toList)).2 s true).1
        (((lastWith isUse m).bind toyConv.num), (lastWith isEnergy m).isSome, (lastWith isTransmission m).isSome)) =
      [(some 1, true, true), (some 0, false, false)] ∧
    (readText tableFile).2.userAttenuators.map (fun t => (t.name, t.comment, t.table)) =
      [("A", "glass", [(1, 0), (2, 1)])] := by decide +kernel

end Config
end Fisx
