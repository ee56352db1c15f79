import Verif.PythonResults
import Verif.PythonMore
import Verif.MultilayerEnv

/-!
# PyDetector (C192)

The detector of Python (PyDetector.pyx), with the interface of Python 3: it is made once, for one material, and then asked
for escape peaks with libraries given to each call.
-/

set_option linter.unusedSectionVars false

namespace Fisx
namespace Python

/-- The detector behind a `PyDetector`. -/
abbrev Det := Detector ℝ (SMap String (Line ℝ))

variable (pf : String → Outcome (SMap String ℝ)) (fuel : Nat)

/-- PyDetector.pyx:44-45: a new detector; what is not given is 1. -/
noncomputable def newDetector (name : Text) (density thickness funny : Option ℝ) : Result Det := do
  let n ← stdString (toBytes name)
  return Detector.new n (density.getD 1) (thickness.getD 1) (funny.getD 1)

/-- PyDetector.pyx:77-90, fisx_detector.cpp:128-167: `getEscape` for Python 3. `label = none` and `update = none` are the defaults
"" and 1. The detector of C++ gets the library as the function that calculates the peaks. -/
noncomputable def detectorGetEscape (lhsFirst : Bool) (d : Det) (energy : ℝ) (L : Library ℝ) (label : Option Text)
    (update : Option Int) : Result (Obj ℝ) × Det :=
  match stdString (toBytes (label.getD (.str ""))) with
  | .value l =>
    let r := d.getEscape lhsFirst [] (Multilayer.detectorEscape pf fuel L) energy l (decide ((update.getD 1) ≠ 0))
    ((guarded r.1).bind (fun m => .value (toStringKeysAndValues (escapeDict m))), r.2)
  | .raises e => (.raises e, d)
  | .aborts e => (.aborts e, d)
  | .ub u => (.ub u, d)
  | .hangs => (.hangs, d)

/-- A call of a method that changes the detector, or may change it. -/
inductive DetectorCall
  | setActiveArea (area : ℝ)
  | setDiameter (value : ℝ)
  | setDistance (value : ℝ)
  | setMaximumNumberOfEscapePeaks (n : Int)
  | getEscape (energy : ℝ) (library : Library ℝ) (label : Option Text) (update : Option Int)

/-- PyDetector.pyx:55-90: one call. -/
noncomputable def detectorStep (lhsFirst : Bool) (d : Det) : DetectorCall → Result Unit × Det
  | .setActiveArea a => let r := d.setActiveArea a; (guarded r.1, r.2)
  | .setDiameter v => let r := d.setDiameter v; (guarded r.1, r.2)
  | .setDistance v => let r := d.setDistance v; (guarded r.1, r.2)
  | .setMaximumNumberOfEscapePeaks n =>
    let r := d.step lhsFirst [] (fun _ _ _ => .ok []) (.setMaximumNumberOfEscapePeaks n)
    (guarded r.1, r.2)
  | .getEscape e L label update =>
    let r := detectorGetEscape pf fuel lhsFirst d e L label update
    (r.1.bind (fun _ => .value ()), r.2)

/-- A sequence of calls, the exceptions being caught. -/
noncomputable def detectorRun (lhsFirst : Bool) (d : Det) (calls : List DetectorCall) : Det :=
  calls.foldl (fun d c => (detectorStep pf fuel lhsFirst d c).2) d

/-- PyDetector.pyx:61-62. -/
noncomputable def detectorActiveArea (d : Det) : ℝ := d.getActiveArea
/-- PyDetector.pyx:64-65. -/
def detectorDiameter (d : Det) : ℝ := d.diameter
/-- PyDetector.pyx:70-71. -/
def detectorDistance (d : Det) : ℝ := d.distance
/-- PyDetector.pyx:92-93. -/
def detectorEnergyThreshold (d : Det) : ℝ := d.energyThreshold
/-- PyDetector.pyx:95-96. -/
def detectorIntensityThreshold (d : Det) : ℝ := d.intensityThreshold
/-- PyDetector.pyx:98-99. -/
def detectorNThreshold (d : Det) : Int := d.nThreshold
/-- PyDetector.pyx:101-102. -/
def detectorAlphaIn (d : Det) : ℝ := d.alphaIn
/-- PyDetector.pyx:104-105. -/
def detectorThickness (d : Det) : ℝ := d.layer.thickness
/-- PyDetector.pyx:107-108. -/
def detectorDensity (d : Det) : ℝ := d.layer.density

/-- PyDetector.pyx:110-114, fisx_layer.cpp:96-106: `getComposition`. -/
noncomputable def detectorGetComposition (d : Det) (L : Library ℝ) : Result (Obj ℝ) :=
  (guarded (Multilayer.detectorComposition pf fuel L d.params)).bind (fun m => .value (toStringKeysAndValues (numbersDict m)))

/-! ## Specification -/

/-- What was set last: diameter, distance and number of escape peaks. A call that is refused sets nothing. -/
structure Settings where
  diameter : ℝ
  distance : ℝ
  peaks : Int

/-- The settings of a new detector. -/
def Settings.initial : Settings := ⟨0, 10, 4⟩

/-- The effect of a call on the settings: the diameter of a given area is that of the disc of this area. -/
noncomputable def Settings.after (s : Settings) : DetectorCall → Settings
  | .setActiveArea a => if 0 ≤ a then { s with diameter := 2 * Real.sqrt (a / Real.pi) } else s
  | .setDiameter v => if 0 ≤ v then { s with diameter := v } else s
  | .setDistance v => if 0 < v then { s with distance := v } else s
  | .setMaximumNumberOfEscapePeaks n => { s with peaks := n }
  | .getEscape _ _ _ _ => s

/-- The settings after a sequence of calls. -/
noncomputable def settings (calls : List DetectorCall) : Settings := calls.foldl Settings.after Settings.initial

/-- The escape peaks of the library `L` for a material, asked for with `n` as number of peaks (the library does not look at it, see C91), 0.01 keV and 1e-7 as
thresholds, and normal incidence. -/
noncomputable def peaksOf (L : Library ℝ) (material : String) (n : Int) (energy : ℝ) : Outcome (SMap String (Line ℝ)) := do
  let comp ← L.comp pf fuel material
  L.getEscape pf fuel ⟨comp, 1 / 100, 1 / 10000000, n, 90, 0⟩ energy

/-- What Python shows of the escape peaks. -/
noncomputable def shownPeaks (o : Outcome (SMap String (Line ℝ))) : Result (Obj ℝ) :=
  (guarded o).bind (fun m => .value (toStringKeysAndValues (escapeDict m)))

/-! ## Proofs -/

/-- The detector was made for `name` and has these settings. -/
structure DetIs (name : String) (density thickness funny : ℝ) (s : Settings) (d : Det) : Prop where
  layer : d.layer = Layer.new name density thickness funny
  diameter : d.diameter = s.diameter
  distance : d.distance = s.distance
  peaks : d.nThreshold = s.peaks
  energy : d.energyThreshold = 1 / 100
  intensity : d.intensityThreshold = 1 / 10000000
  alpha : d.alphaIn = 90

variable {pf fuel}

theorem getEscape_keeps (lhsFirst : Bool) (esc : Detector.EscapeParams ℝ → ℝ → Outcome (SMap String (Line ℝ))) (d : Det) (e : ℝ)
    (l : String) (u : Bool) : ∃ c, (d.getEscape lhsFirst [] esc e l u).2 = { d with cache := c } := by
  unfold Detector.getEscape
  by_cases hl : l = ""
  · rw [if_neg (not_not.2 hl)]; exact ⟨d.cache, rfl⟩
  · rw [if_pos hl]
    have hd : ∃ c, (if u = true then { d with cache := [] } else d) = { d with cache := c } := by
      cases u
      · exact ⟨d.cache, rfl⟩
      · exact ⟨[], rfl⟩
    obtain ⟨c, hc⟩ := hd
    rw [hc]
    simp only
    cases (c.find? l).bind (fun c => c.find? e) with
    | some r => exact ⟨c, rfl⟩
    | none =>
      simp only
      cases esc _ e with
      | ok r => exact ⟨_, rfl⟩
      | throw x =>
        cases lhsFirst
        · exact ⟨c, rfl⟩
        · exact ⟨_, rfl⟩
      | ub x => exact ⟨c, rfl⟩
      | diverge => exact ⟨c, rfl⟩

theorem detectorGetEscape_keeps (lhsFirst : Bool) (d : Det) (e : ℝ) (L : Library ℝ) (label : Option Text) (update : Option Int) :
    ∃ c, (detectorGetEscape pf fuel lhsFirst d e L label update).2 = { d with cache := c } := by
  unfold detectorGetEscape
  cases stdString (toBytes (label.getD (.str ""))) with
  | value l => exact getEscape_keeps lhsFirst _ d e l _
  | raises x => exact ⟨d.cache, rfl⟩
  | aborts x => exact ⟨d.cache, rfl⟩
  | ub x => exact ⟨d.cache, rfl⟩
  | hangs => exact ⟨d.cache, rfl⟩

theorem step_is {name : String} {density thickness funny : ℝ} {s : Settings} {d : Det} (h : DetIs name density thickness funny s d)
    (lhsFirst : Bool) (c : DetectorCall) :
    DetIs name density thickness funny (s.after c) (detectorStep pf fuel lhsFirst d c).2 := by
  cases c with
  | setActiveArea a =>
    simp only [detectorStep, Detector.setActiveArea, Settings.after]
    by_cases ha : 0 ≤ a
    · rw [if_neg (not_lt.2 ha), if_pos ha]
      exact ⟨h.layer, rfl, h.distance, h.peaks, h.energy, h.intensity, h.alpha⟩
    · rw [if_pos (not_le.1 ha), if_neg ha]; exact h
  | setDiameter a =>
    simp only [detectorStep, Detector.setDiameter, Settings.after]
    by_cases ha : 0 ≤ a
    · rw [if_neg (not_lt.2 ha), if_pos ha]
      exact ⟨h.layer, rfl, h.distance, h.peaks, h.energy, h.intensity, h.alpha⟩
    · rw [if_pos (not_le.1 ha), if_neg ha]; exact h
  | setDistance a =>
    simp only [detectorStep, Detector.setDistance, Settings.after]
    by_cases ha : 0 < a
    · rw [if_neg (not_le.2 ha), if_pos ha]
      exact ⟨h.layer, h.diameter, rfl, h.peaks, h.energy, h.intensity, h.alpha⟩
    · rw [if_pos (not_lt.1 ha), if_neg ha]; exact h
  | setMaximumNumberOfEscapePeaks n =>
    exact ⟨h.layer, h.diameter, h.distance, rfl, h.energy, h.intensity, h.alpha⟩
  | getEscape e L label update =>
    simp only [detectorStep, Settings.after]
    obtain ⟨c, hc⟩ := detectorGetEscape_keeps (pf := pf) (fuel := fuel) lhsFirst d e L label update
    rw [hc]
    exact ⟨h.layer, h.diameter, h.distance, h.peaks, h.energy, h.intensity, h.alpha⟩

theorem run_is (lhsFirst : Bool) {name : String} {density thickness funny : ℝ} : ∀ (calls : List DetectorCall) {s : Settings} {d : Det},
    DetIs name density thickness funny s d →
    DetIs name density thickness funny (calls.foldl Settings.after s) (detectorRun pf fuel lhsFirst d calls)
  | [], _, _, h => h
  | c :: cs, _, _, h => run_is lhsFirst cs (step_is h lhsFirst c)

theorem new_is {name : Text} {density thickness funny : Option ℝ} {d : Det} (h : newDetector name density thickness funny = .value d) :
    DetIs name.get (density.getD 1) (thickness.getD 1) (funny.getD 1) Settings.initial d := by
  unfold newDetector at h
  rw [stdString_toBytes, do_bind] at h
  cases h
  exact ⟨rfl, rfl, rfl, rfl, rfl, rfl, rfl⟩

theorem params_is {name : String} {density thickness funny : ℝ} {s : Settings} {d : Det} (h : DetIs name density thickness funny s d) :
    d.params = ⟨false, name, [], 1 / 100, 1 / 10000000, s.peaks, 90⟩ := by
  unfold Detector.params
  rw [h.layer, h.energy, h.intensity, h.alpha, h.peaks]
  rfl

theorem escape_is {name : String} {density thickness funny : ℝ} {s : Settings} {d : Det} (h : DetIs name density thickness funny s d)
    (L : Library ℝ) (e : ℝ) : Multilayer.detectorEscape pf fuel L d.params e = peaksOf pf fuel L name s.peaks e := by
  rw [params_is h]
  unfold Multilayer.detectorEscape peaksOf Multilayer.detectorComposition
  rfl

theorem getEscape_cleared (lhsFirst : Bool) (esc : Detector.EscapeParams ℝ → ℝ → Outcome (SMap String (Line ℝ))) (d : Det) (e : ℝ)
    (l : String) : (d.getEscape lhsFirst [] esc e l true).1 = esc d.params e := by
  unfold Detector.getEscape
  by_cases hl : l = ""
  · rw [if_neg (not_not.2 hl)]
  · rw [if_pos hl]
    simp only [if_true]
    have hp : Detector.params ({ d with cache := [] } : Det) = d.params := rfl
    have hc : (SMap.find? ([] : SMap String (SMap ℝ (SMap String (Line ℝ)))) l).bind (fun c => c.find? e) = none := rfl
    rw [hc, hp]
    simp only
    cases esc d.params e <;> rfl

theorem getEscape_unlabelled (lhsFirst : Bool) (esc : Detector.EscapeParams ℝ → ℝ → Outcome (SMap String (Line ℝ))) (d : Det) (e : ℝ)
    (u : Bool) : (d.getEscape lhsFirst [] esc e "" u).1 = esc d.params e := by
  unfold Detector.getEscape
  rw [if_neg (by simp)]

/-! ## The properties -/

/-- **C192** A detector of Python has, after any calls, the material, the density and the thickness it was made with, the diameter, distance and number of
escape peaks that were set last, and the thresholds that cannot be changed from Python. -/
theorem C192_settings (lhsFirst : Bool) {name : Text} {density thickness funny : Option ℝ} {d : Det}
    (hd : newDetector name density thickness funny = .value d) (calls : List DetectorCall) :
    let d' := detectorRun pf fuel lhsFirst d calls
    detectorDiameter d' = (settings calls).diameter ∧ detectorDistance d' = (settings calls).distance ∧
      detectorNThreshold d' = (settings calls).peaks ∧ detectorEnergyThreshold d' = 1 / 100 ∧
      detectorIntensityThreshold d' = 1 / 10000000 ∧ detectorAlphaIn d' = 90 ∧ detectorDensity d' = density.getD 1 ∧
      detectorThickness d' = thickness.getD 1 ∧ detectorActiveArea d' = Real.pi * (settings calls).diameter ^ 2 / 4 := by
  intro d'
  have h := run_is (pf := pf) (fuel := fuel) lhsFirst calls (new_is hd)
  refine ⟨h.diameter, h.distance, h.peaks, h.energy, h.intensity, h.alpha, ?_, ?_, ?_⟩
  · show d'.layer.density = _
    rw [h.layer]; rfl
  · show d'.layer.thickness = _
    rw [h.layer]; rfl
  · show d'.getActiveArea = _
    unfold Detector.getActiveArea
    rw [h.diameter]
    unfold settings
    ring

/-- **C192** A wrong size is refused with a `ValueError` and nothing is changed; any other is taken, and an area is read back as it was given. -/
theorem C192_sizes (lhsFirst : Bool) (d : Det) (v : ℝ) :
    ((detectorStep pf fuel lhsFirst d (.setActiveArea v)).1 = if v < 0 then .raises .valueError else .value ()) ∧
      ((detectorStep pf fuel lhsFirst d (.setDiameter v)).1 = if v < 0 then .raises .valueError else .value ()) ∧
      ((detectorStep pf fuel lhsFirst d (.setDistance v)).1 = if v ≤ 0 then .raises .valueError else .value ()) ∧
      (v < 0 → (detectorStep pf fuel lhsFirst d (.setActiveArea v)).2 = d ∧ (detectorStep pf fuel lhsFirst d (.setDiameter v)).2 = d) ∧
      (v ≤ 0 → (detectorStep pf fuel lhsFirst d (.setDistance v)).2 = d) ∧
      (0 ≤ v → detectorActiveArea (detectorStep pf fuel lhsFirst d (.setActiveArea v)).2 = v) := by
  refine ⟨?_, ?_, ?_, fun hv => ⟨?_, ?_⟩, fun hv => ?_, fun hv => ?_⟩
  · simp only [detectorStep, Detector.setActiveArea]; split_ifs <;> rfl
  · simp only [detectorStep, Detector.setDiameter]; split_ifs <;> rfl
  · simp only [detectorStep, Detector.setDistance]; split_ifs <;> rfl
  · simp only [detectorStep, Detector.setActiveArea, if_pos hv]
  · simp only [detectorStep, Detector.setDiameter, if_pos hv]
  · simp only [detectorStep, Detector.setDistance, if_pos hv]
  · exact ((Detector.C10_area_diameter d).1 v hv).2.1

/-- **C192** The escape peaks asked for in the usual way (no `label`, or `update` not 0, as by default) are, after any calls and for both orders in which C++
may evaluate the assignment, those of the library given now for the material of the detector and the number of peaks set last; an exception of the library is
the exception of Python, also when the same was asked before. -/
theorem C192_escape (lhsFirst : Bool) {name : Text} {density thickness funny : Option ℝ} {d : Det}
    (hd : newDetector name density thickness funny = .value d) (calls : List DetectorCall) (energy : ℝ) (L : Library ℝ)
    (label : Option Text) (update : Option Int) (h : (label.getD (.str "")).get = "" ∨ update ≠ some 0) :
    (detectorGetEscape pf fuel lhsFirst (detectorRun pf fuel lhsFirst d calls) energy L label update).1 =
      shownPeaks (peaksOf pf fuel L name.get (settings calls).peaks energy) := by
  have hi := run_is (pf := pf) (fuel := fuel) lhsFirst calls (new_is hd)
  generalize detectorRun pf fuel lhsFirst d calls = d' at hi ⊢
  unfold detectorGetEscape
  rw [stdString_toBytes]
  unfold shownPeaks settings
  rw [← escape_is hi]
  simp only
  rcases h with h | h
  · rw [h, getEscape_unlabelled]
  · have : decide ((update.getD 1) ≠ 0) = true := by
      cases update with
      | none => rfl
      | some n => simpa using h
    rw [this, getEscape_cleared]

/-- The library of a call is that of its label. -/
def DetectorCall.Labelled (lib : String → Library ℝ) : DetectorCall → Prop
  | .getEscape _ L label _ => L = lib (label.getD (.str "")).get
  | _ => True

theorem step_coherent' {lib : String → Library ℝ} {d : Det}
    (h : Detector.Coherent (fun l => Multilayer.detectorEscape pf fuel (lib l)) d) (c : DetectorCall) (hc : c.Labelled lib) :
    Detector.Coherent (fun l => Multilayer.detectorEscape pf fuel (lib l)) (detectorStep pf fuel false d c).2 := by
  cases c with
  | setActiveArea a => simp only [detectorStep, Detector.setActiveArea]; split_ifs <;> exact h
  | setDiameter a => exact Detector.step_coherent [] _ d h (.setDiameter a)
  | setDistance a => exact Detector.step_coherent [] _ d h (.setDistance a)
  | setMaximumNumberOfEscapePeaks n => exact Detector.step_coherent [] _ d h (.setMaximumNumberOfEscapePeaks n)
  | getEscape e L label update =>
    simp only [DetectorCall.Labelled] at hc
    subst hc
    simp only [detectorStep, detectorGetEscape, stdString_toBytes]
    exact (Detector.getEscape_correct [] _ d h e _ _).2.1

theorem run_coherent {lib : String → Library ℝ} : ∀ (calls : List DetectorCall) {d : Det},
    Detector.Coherent (fun l => Multilayer.detectorEscape pf fuel (lib l)) d → (∀ c ∈ calls, c.Labelled lib) →
    Detector.Coherent (fun l => Multilayer.detectorEscape pf fuel (lib l)) (detectorRun pf fuel false d calls)
  | [], _, h, _ => h
  | c :: cs, _, h, hc => run_coherent cs (step_coherent' h c (hc c (by simp))) (fun c' h' => hc c' (by simp [h']))

/-- **C192** With `update=0` the answers are kept under the label. As long as a label always names the same library they are those that this library gives now,
after any calls (in the order of evaluation of C++17: otherwise see C87). -/
theorem C192_labels {name : Text} {density thickness funny : Option ℝ} {d : Det}
    (hd : newDetector name density thickness funny = .value d) (lib : String → Library ℝ) (calls : List DetectorCall)
    (hc : ∀ c ∈ calls, c.Labelled lib) (energy : ℝ) (label : Option Text) (update : Option Int) :
    (detectorGetEscape pf fuel false (detectorRun pf fuel false d calls) energy (lib (label.getD (.str "")).get) label update).1 =
      shownPeaks (peaksOf pf fuel (lib (label.getD (.str "")).get) name.get (settings calls).peaks energy) := by
  have hi := run_is (pf := pf) (fuel := fuel) false calls (new_is hd)
  have h0 : Detector.Coherent (fun l => Multilayer.detectorEscape pf fuel (lib l)) d := by
    unfold newDetector at hd
    rw [stdString_toBytes, do_bind] at hd
    cases hd
    intro l c h
    simp [Detector.new] at h
  have h := run_coherent calls h0 hc
  generalize detectorRun pf fuel false d calls = d' at hi h ⊢
  unfold detectorGetEscape
  rw [stdString_toBytes]
  unfold shownPeaks settings
  rw [← escape_is hi]
  simp only
  rw [(Detector.getEscape_correct [] _ d' h energy _ _).1]
  rfl

/-- **C192** What `update=0` may give otherwise: once the peaks of a library are kept under a label, the same question with this label and `update=0` has the same
answer, whatever library is given. -/
theorem C192_kept (lhsFirst : Bool) (d : Det) (energy : ℝ) (L L' : Library ℝ) (label : Text) (hl : label.get ≠ "") (update : Option Int)
    {m : SMap String (Line ℝ)} (h : (d.getEscape lhsFirst [] (Multilayer.detectorEscape pf fuel L) energy label.get (decide ((update.getD 1) ≠ 0))).1 = .ok m) :
    (detectorGetEscape pf fuel lhsFirst (detectorGetEscape pf fuel lhsFirst d energy L (some label) update).2 energy L' (some label) (some 0)).1 =
      .value (toStringKeysAndValues (escapeDict m)) := by
  unfold detectorGetEscape
  simp only [Option.getD_some, stdString_toBytes]
  have key : ∀ d' : Det, (d'.cache.find? label.get).bind (fun c => c.find? energy) = some m →
      (d'.getEscape lhsFirst [] (Multilayer.detectorEscape pf fuel L') energy label.get (decide ((0 : Int) ≠ 0))).1 = .ok m := by
    intro d' hm
    unfold Detector.getEscape
    rw [if_pos hl]
    simp [hm]
  have hm : (((d.getEscape lhsFirst [] (Multilayer.detectorEscape pf fuel L) energy label.get
      (decide ((update.getD 1) ≠ 0))).2.cache.find? label.get).bind (fun c => c.find? energy)) = some m := by
    unfold Detector.getEscape at h ⊢
    rw [if_pos hl] at h ⊢
    generalize (if decide ((update.getD 1) ≠ 0) = true then { d with cache := [] } else d) = d' at h ⊢
    simp only at h ⊢
    cases hh : (d'.cache.find? label.get).bind (fun c => c.find? energy) with
    | some r =>
      rw [hh] at h
      simp only at h ⊢
      cases h
      exact hh
    | none =>
      rw [hh] at h
      simp only at h ⊢
      cases he : Multilayer.detectorEscape pf fuel L d'.params energy with
      | ok r =>
        rw [he] at h
        simp only at h ⊢
        cases h
        simp [SMap.find?_insert]
      | throw x => rw [he] at h; cases h
      | ub x => rw [he] at h; cases h
      | diverge => rw [he] at h; cases h
  rw [key _ hm]
  rfl

/-- **C192** The composition is that of the library given now for the material of the detector, whatever was called before, and the program survives every
call: exceptions of C++ become exceptions of Python. -/
theorem C192_composition (lhsFirst : Bool) {name : Text} {density thickness funny : Option ℝ} {d : Det}
    (hd : newDetector name density thickness funny = .value d) (calls : List DetectorCall) (L : Library ℝ) :
    detectorGetComposition pf fuel (detectorRun pf fuel lhsFirst d calls) L =
        (guarded (L.comp pf fuel name.get)).bind (fun m => .value (toStringKeysAndValues (numbersDict m))) ∧
      ∀ (d' : Det) (c : DetectorCall) (x : Exc), (detectorStep pf fuel lhsFirst d' c).1 ≠ .aborts x := by
  have hi := run_is (pf := pf) (fuel := fuel) lhsFirst calls (new_is hd)
  refine ⟨?_, fun d' c x => ?_⟩
  · unfold detectorGetComposition
    rw [params_is hi]
    rfl
  · have hg : ∀ {α β : Type} (o : Outcome α) (f : α → β), (guarded o).bind (fun a => .value (f a)) ≠ .aborts x := by
      intro α β o f
      cases o <;> simp [guarded, Result.bind]
    have hg' : ∀ {α : Type} (o : Outcome α), guarded o ≠ .aborts x := by
      intro α o
      cases o <;> simp [guarded]
    cases c with
    | setActiveArea a => exact hg' _
    | setDiameter a => exact hg' _
    | setDistance a => exact hg' _
    | setMaximumNumberOfEscapePeaks n => simp [detectorStep, Detector.step, guarded]
    | getEscape e L label update =>
      simp only [detectorStep, detectorGetEscape, stdString_toBytes]
      cases Detector.getEscape lhsFirst [] (Multilayer.detectorEscape pf fuel L) d' e (label.getD (.str "")).get
        (decide ((update.getD 1) ≠ 0)) with
      | mk o s => cases o <;> simp [guarded, Result.bind]

/-- **C192** What is shown can be looked up: `detector.getEscape(energy, library)["Si_KL3esc"]["rate"]` and `["energy"]` are the rate and the energy of the peak of
this name, and it is a `KeyError` exactly when the library has none. What the library keeps are maps. -/
theorem C192_peaks (lhsFirst : Bool) {name : Text} {density thickness funny : Option ℝ} {d : Det}
    (hd : newDetector name density thickness funny = .value d) (calls : List DetectorCall) (energy : ℝ) (L : Library ℝ)
    (hL : ∀ e r, L.escape.find? e = some r → r.Sorted) {o : Obj ℝ}
    (h : (detectorGetEscape pf fuel lhsFirst (detectorRun pf fuel lhsFirst d calls) energy L none none).1 = .value o) :
    ∃ m, peaksOf pf fuel L name.get (settings calls).peaks energy = .ok m ∧ ∀ n,
      o.path? [.text (.str n), .text (.str "energy")] = (m.find? n).map (fun l => Obj.num l.energy) ∧
      o.path? [.text (.str n), .text (.str "rate")] = (m.find? n).map (fun l => Obj.num l.rate) := by
  rw [C192_escape lhsFirst hd calls energy L none none (Or.inl rfl)] at h
  unfold shownPeaks at h
  cases hp : peaksOf pf fuel L name.get (settings calls).peaks energy with
  | ok m =>
    rw [hp] at h
    cases h
    refine ⟨m, rfl, fun n => ?_⟩
    have hs : m.Sorted := by
      unfold peaksOf at hp
      obtain ⟨comp, _, hp⟩ := Outcome.bind_eq_ok.1 hp
      have hc : ∀ key r, Library.computeEscape pf L fuel key energy = .ok r → SMap.Sorted r := by
        intro key r hr
        unfold Library.computeEscape at hr
        obtain ⟨mi, _, hr⟩ := Outcome.bind_eq_ok.1 hr
        exact (Library.escapeElements_complete pf L fuel key energy _ _ _ _ hr).1 SMap.sorted_nil
      unfold Library.getEscape at hp
      split_ifs at hp
      · cases hf : L.escape.find? energy with
        | some r =>
          rw [hf] at hp
          cases hp
          exact hL _ _ hf
        | none =>
          rw [hf] at hp
          exact hc _ _ hp
      · exact hc _ _ hp
    exact ⟨(C169_escape hs n).1, (C169_escape hs n).2.1⟩
  | throw x => rw [hp] at h; cases h
  | ub x => rw [hp] at h; cases h
  | diverge => rw [hp] at h; cases h

/-- A detector of silicon, resized and limited to two escape peaks; the two refused calls are without effect. -/
example : ∃ d, newDetector (.str "Si") (some 2) none none = .value d ∧
    (settings [.setDiameter 3, .setDistance (-1), .setMaximumNumberOfEscapePeaks 2, .setDiameter (-5)]).diameter = 3 ∧
    (settings [.setDiameter 3, .setDistance (-1), .setMaximumNumberOfEscapePeaks 2, .setDiameter (-5)]).distance = 10 ∧
    (settings [.setDiameter 3, .setDistance (-1), .setMaximumNumberOfEscapePeaks 2, .setDiameter (-5)]).peaks = 2 := by
  refine ⟨_, rfl, ?_, ?_, ?_⟩ <;> norm_num [settings, Settings.after, Settings.initial]

end Python
end Fisx
