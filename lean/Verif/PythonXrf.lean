import Verif.PythonDetector
import Verif.ConfigProps
import Verif.XrfProps

/-!
# PyXRF (C193, C194)

The calculator of Python (PyXRF.pyx), with the interface of Python 3: its settings over sequences of calls, and the rates asked for with
strings.
-/

set_option linter.unusedSectionVars false

namespace Fisx
namespace Python

/-- The configuration behind a `PyXRF`. -/
abbrev Cfg := Config ℝ (SMap String (Line ℝ))

section settings

variable (sort : List (Ray ℝ) → List (Ray ℝ)) (cv : Conv ℝ) (fs : String → Option Str)

/-- PyXRF.pyx:54-58, fisx_xrf.cpp:79-83: `readConfigurationFromFile`; `fs` is the content of the files. -/
noncomputable def xrfRead (c : Cfg) (fileName : Text) : Result Unit × Cfg :=
  onState (stdString (toBytes fileName)) c (fun n =>
    let r := Config.read Detector.setActiveArea sort cv c (fs n)
    (guarded r.1, r.2))

/-- PyXRF.pyx:45-49, python/cython/default/_fisx.cpp:27973-27977, fisx_xrf.cpp:41-52: the constructor. The name of the file goes to a
`std::string` as it is. -/
noncomputable def newXrf (configurationFile : Option Text) : Result Cfg :=
  match configurationFile with
  | none => .value Config.new
  | some t => do
    let n ← stdString t
    if n.toList = [] then .value Config.new
    else do
      let r := Config.read Detector.setActiveArea sort cv (Config.new : Cfg) (fs n)
      let _ ← guarded r.1
      return r.2

/-- A call that changes a setting. `scatteringAngle = none` is the default -90. The detector is not `None`. -/
inductive XrfCall
  | setBeam (energies : Arg ℝ) (weights : Option (Arg ℝ)) (characteristic : Option (Arg Int)) (divergency : Option (Arg ℝ))
  | setBeamFilters (layers : List (LayerItem ℝ))
  | setUserBeamFilters (tables : List (TableItem ℝ))
  | setSample (layers : List (LayerItem ℝ)) (referenceLayer : Option Int)
  | setAttenuators (layers : List (LayerItem ℝ))
  | setUserAttenuators (tables : List (TableItem ℝ))
  | setDetector (detector : Det)
  | setGeometry (alphaIn alphaOut : ℝ) (scatteringAngle : Option ℝ)

/-- PyXRF.pyx:60-221: one call. -/
noncomputable def xrfStep (c : Cfg) : XrfCall → Result Unit × Cfg
  | .setBeam e w ch d => xrfSetBeam sort c e w ch d
  | .setBeamFilters l => setBeamFilters c l
  | .setUserBeamFilters t => setUserBeamFilters c t
  | .setSample l r => setSample c l (r.getD 0)
  | .setAttenuators l => setAttenuators c l
  | .setUserAttenuators t => setUserAttenuators c t
  | .setDetector d => (.value (), { c with detector := d })
  | .setGeometry a b s => (.value (), setGeometry c a b (s.getD (-90)))

/-- A sequence of calls, the exceptions being caught. -/
noncomputable def xrfRun (c : Cfg) (calls : List XrfCall) : Cfg := calls.foldl (fun c k => (xrfStep sort c k).2) c

end settings

/-! ## Specification -/

/-- The settings that can be changed one by one. -/
inductive Part
  | beam | beamFilters | userBeamFilters | sample | attenuators | userAttenuators | detector | geometry
deriving DecidableEq

/-- The setting that a call is about. -/
def XrfCall.part : XrfCall → Part
  | .setBeam _ _ _ _ => .beam
  | .setBeamFilters _ => .beamFilters
  | .setUserBeamFilters _ => .userBeamFilters
  | .setSample _ _ => .sample
  | .setAttenuators _ => .attenuators
  | .setUserAttenuators _ => .userAttenuators
  | .setDetector _ => .detector
  | .setGeometry _ _ _ => .geometry

/-- The two configurations have the same setting. -/
def SamePart (c c' : Cfg) : Part → Prop
  | .beam => c.beam = c'.beam
  | .beamFilters => c.beamFilters = c'.beamFilters
  | .userBeamFilters => c.userBeamFilters = c'.userBeamFilters
  | .sample => c.sample = c'.sample ∧ c.referenceLayer = c'.referenceLayer
  | .attenuators => c.attenuators = c'.attenuators
  | .userAttenuators => c.userAttenuators = c'.userAttenuators
  | .detector => c.detector = c'.detector
  | .geometry => c.alphaIn = c'.alphaIn ∧ c.alphaOut = c'.alphaOut ∧ c.scatteringAngle = c'.scatteringAngle

/-- The call is accepted by a new object. -/
def XrfCall.Accepted (sort : List (Ray ℝ) → List (Ray ℝ)) (k : XrfCall) : Prop := (xrfStep sort Config.new k).1 = .value ()

/-! ## Proofs -/

theorem SamePart.refl (c : Cfg) (p : Part) : SamePart c c p := by cases p <;> simp [SamePart]

theorem SamePart.trans {a b c : Cfg} {p : Part} (h : SamePart a b p) (h' : SamePart b c p) : SamePart a c p := by
  cases p <;> simp only [SamePart] at h h' ⊢
  all_goals first
    | exact h.trans h'
    | exact ⟨h.1.trans h'.1, h.2.trans h'.2⟩
    | exact ⟨h.1.trans h'.1, h.2.1.trans h'.2.1, h.2.2.trans h'.2.2⟩

theorem SamePart.symm {a b : Cfg} {p : Part} (h : SamePart a b p) : SamePart b a p := by
  cases p <;> simp only [SamePart] at h ⊢
  all_goals first
    | exact h.symm
    | exact ⟨h.1.symm, h.2.symm⟩
    | exact ⟨h.1.symm, h.2.1.symm, h.2.2.symm⟩

/-- Configurations with the same settings and materials are the same. -/
theorem same_all {a b : Cfg} (h : ∀ p, SamePart a b p) (hm : a.materials = b.materials) : a = b := by
  obtain ⟨h1, h2⟩ := h .sample
  obtain ⟨h3, h4, h5⟩ := h .geometry
  have h6 : a.beam = b.beam := h .beam
  have h7 : a.beamFilters = b.beamFilters := h .beamFilters
  have h8 : a.userBeamFilters = b.userBeamFilters := h .userBeamFilters
  have h9 : a.attenuators = b.attenuators := h .attenuators
  have h10 : a.userAttenuators = b.userAttenuators := h .userAttenuators
  have h11 : a.detector = b.detector := h .detector
  cases a; cases b
  simp only at *
  subst_vars
  rfl

/-- What one call may do: it gives the answer `x`, and when this is `.value ()` changes the part `p` to what it is in `n`. -/
structure Does (p : Part) (c n c' : Cfg) (x y : Result Unit) : Prop where
  same : x = y
  accepted : x = .value () → SamePart c' n p ∧ ∀ q, q ≠ p → SamePart c' c q
  refused : x ≠ .value () → c' = c
  materials : c'.materials = c.materials

theorem does_onState {α : Type} (p : Part) (c n : Cfg) (x : Result α) (f g : α → Result Unit × Cfg)
    (h : ∀ a, Does p c (g a).2 (f a).2 (f a).1 (g a).1) :
    Does p c (onState x n g).2 (onState x c f).2 (onState x c f).1 (onState x n g).1 := by
  cases x with
  | value a => exact h a
  | raises e => exact ⟨rfl, by simp [onState], fun _ => rfl, rfl⟩
  | aborts e => exact ⟨rfl, by simp [onState], fun _ => rfl, rfl⟩
  | ub u => exact ⟨rfl, by simp [onState], fun _ => rfl, rfl⟩
  | hangs => exact ⟨rfl, by simp [onState], fun _ => rfl, rfl⟩

theorem does_beam (sort : List (Ray ℝ) → List (Ray ℝ)) (c n : Cfg) (es ws : List ℝ) (ch : List Int) (d : List ℝ) :
    Does .beam c ({ n with beam := (n.beam.setBeam sort es ws ch d).2 }) ({ c with beam := (c.beam.setBeam sort es ws ch d).2 })
      (guarded (c.beam.setBeam sort es ws ch d).1) (guarded (n.beam.setBeam sort es ws ch d).1) := by
  unfold Beam.setBeam
  by_cases h : es.length > 0
  · rw [if_pos h, if_pos h]
    cases Beam.buildRays es 0 ws ch d with
    | ok r => exact ⟨rfl, fun _ => ⟨rfl, fun q hq => by cases q <;> simp [SamePart] at hq ⊢⟩, fun h => absurd rfl h, rfl⟩
    | throw e => exact ⟨rfl, by simp [guarded], fun _ => rfl, rfl⟩
    | ub e => exact ⟨rfl, by simp [guarded], fun _ => rfl, rfl⟩
    | diverge => exact ⟨rfl, by simp [guarded], fun _ => rfl, rfl⟩
  · rw [if_neg h, if_neg h]
    exact ⟨rfl, fun _ => ⟨rfl, fun q hq => by cases q <;> simp [SamePart] at hq ⊢⟩, fun h => absurd rfl h, rfl⟩

theorem step_does (sort : List (Ray ℝ) → List (Ray ℝ)) (c n : Cfg) (k : XrfCall) :
    Does k.part c (xrfStep sort n k).2 (xrfStep sort c k).2 (xrfStep sort c k).1 (xrfStep sort n k).1 := by
  cases k with
  | setBeam e w ch d =>
    simp only [xrfStep, XrfCall.part]
    cases e with
    | one e =>
      simp only [xrfSetBeam]
      refine does_onState _ c n _ _ _ (fun a => ?_)
      exact ⟨rfl, fun _ => ⟨rfl, fun q hq => by cases q <;> simp [SamePart] at hq ⊢⟩, fun h => absurd rfl h, rfl⟩
    | many es =>
      simp only [xrfSetBeam]
      refine does_onState _ c n _ _ _ (fun a => ?_)
      refine does_onState _ c n _ _ _ (fun b => ?_)
      exact does_beam sort c n es _ a b
  | setBeamFilters l =>
    refine does_onState _ c n _ _ _ (fun a => ?_)
    exact ⟨rfl, fun _ => ⟨rfl, fun q hq => by cases q <;> simp [SamePart, XrfCall.part] at hq ⊢⟩, fun h => absurd rfl h, rfl⟩
  | setUserBeamFilters l =>
    refine does_onState _ c n _ _ _ (fun a => ?_)
    exact ⟨rfl, fun _ => ⟨rfl, fun q hq => by cases q <;> simp [SamePart, XrfCall.part] at hq ⊢⟩, fun h => absurd rfl h, rfl⟩
  | setAttenuators l =>
    refine does_onState _ c n _ _ _ (fun a => ?_)
    exact ⟨rfl, fun _ => ⟨rfl, fun q hq => by cases q <;> simp [SamePart, XrfCall.part] at hq ⊢⟩, fun h => absurd rfl h, rfl⟩
  | setUserAttenuators l =>
    refine does_onState _ c n _ _ _ (fun a => ?_)
    exact ⟨rfl, fun _ => ⟨rfl, fun q hq => by cases q <;> simp [SamePart, XrfCall.part] at hq ⊢⟩, fun h => absurd rfl h, rfl⟩
  | setSample l r =>
    simp only [xrfStep, setSample]
    refine does_onState _ c n _ _ _ (fun a => ?_)
    unfold Config.setSample
    by_cases h : r.getD 0 ≥ (a.length : Int)
    · rw [if_pos h, if_pos h]
      exact ⟨rfl, by simp [guarded], fun _ => rfl, rfl⟩
    · rw [if_neg h, if_neg h]
      exact ⟨rfl, fun _ => ⟨⟨rfl, rfl⟩, fun q hq => by cases q <;> simp [SamePart, XrfCall.part] at hq ⊢⟩, fun h => absurd rfl h, rfl⟩
  | setDetector d =>
    exact ⟨rfl, fun _ => ⟨rfl, fun q hq => by cases q <;> simp [SamePart, XrfCall.part, xrfStep] at hq ⊢⟩, fun h => absurd rfl h, rfl⟩
  | setGeometry a b s =>
    simp only [xrfStep]
    rw [(C148_geometry c a b _).1, (C148_geometry n a b _).1]
    exact ⟨rfl, fun _ => ⟨⟨rfl, rfl, rfl⟩, fun q hq => by cases q <;> simp [SamePart, XrfCall.part] at hq ⊢⟩, fun h => absurd rfl h, rfl⟩

theorem run_materials (sort : List (Ray ℝ) → List (Ray ℝ)) : ∀ (calls : List XrfCall) (c : Cfg),
    (xrfRun sort c calls).materials = c.materials
  | [], _ => rfl
  | k :: ks, c => (run_materials sort ks _).trans (step_does sort c c k).materials

/-- A setting that no accepted call is about stays. -/
theorem run_keeps (sort : List (Ray ℝ) → List (Ray ℝ)) (p : Part) : ∀ (calls : List XrfCall) (c : Cfg),
    (∀ k ∈ calls, k.Accepted sort → k.part ≠ p) → SamePart (xrfRun sort c calls) c p
  | [], c, _ => SamePart.refl c p
  | k :: ks, c, h => by
    refine (run_keeps sort p ks (xrfStep sort c k).2 (fun k' h' => h k' (List.mem_cons_of_mem _ h'))).trans ?_
    have hd := step_does sort c Config.new k
    by_cases ha : (xrfStep sort c k).1 = .value ()
    · exact (hd.accepted ha).2 p (fun e => h k List.mem_cons_self (by unfold XrfCall.Accepted; rw [← hd.same]; exact ha) e.symm)
    · rw [hd.refused ha]; exact SamePart.refl c p

/-! ## The properties: the settings -/

/-- **C193** A call to set something is accepted or refused whatever was set before. An accepted one changes its own setting, to what it is on any other object
after this call, and no other; a refused one (with an exception) changes nothing. -/
theorem C193_call (sort : List (Ray ℝ) → List (Ray ℝ)) (c c' : Cfg) (k : XrfCall) :
    (xrfStep sort c k).1 = (xrfStep sort c' k).1 ∧
      ((xrfStep sort c k).1 = .value () → SamePart (xrfStep sort c k).2 (xrfStep sort c' k).2 k.part ∧
        ∀ p, p ≠ k.part → SamePart (xrfStep sort c k).2 c p) ∧
      (∀ e, (xrfStep sort c k).1 = .raises e → (xrfStep sort c k).2 = c) ∧ (xrfStep sort c k).2.materials = c.materials := by
  have h := step_does sort c c' k
  exact ⟨h.same, h.accepted, fun e he => h.refused (by rw [he]; simp), h.materials⟩

/-- **C193** After any calls each setting is the one of the last accepted call about it, on a new object, and the one before all calls when there is none. (Calls of
`setBeam` that read past the end of their lists, see C147, are left out: nothing can be said after them.) -/
theorem C193_last (sort : List (Ray ℝ) → List (Ray ℝ)) (c : Cfg) (p : Part) :
    (∀ (before after : List XrfCall) (k : XrfCall), k.part = p → k.Accepted sort → (∀ k' ∈ after, k'.Accepted sort → k'.part ≠ p) →
      SamePart (xrfRun sort c (before ++ k :: after)) (xrfStep sort Config.new k).2 p) ∧
    (∀ calls : List XrfCall, (∀ k' ∈ calls, k'.Accepted sort → k'.part ≠ p) → SamePart (xrfRun sort c calls) c p) := by
  refine ⟨fun before after k hk ha hafter => ?_, fun calls h => run_keeps sort p calls c h⟩
  subst hk
  have e : xrfRun sort c (before ++ k :: after) = xrfRun sort (xrfStep sort (xrfRun sort c before) k).2 after := by
    unfold xrfRun
    rw [List.foldl_append, List.foldl_cons]
  rw [e]
  refine (run_keeps sort k.part after _ hafter).trans ?_
  have hd := step_does sort (xrfRun sort c before) Config.new k
  exact (hd.accepted (hd.same.trans ha)).1

/-- The last accepted call about a setting. -/
noncomputable def lastCall (sort : List (Ray ℝ) → List (Ray ℝ)) (p : Part) (calls : List XrfCall) : Option XrfCall :=
  by classical exact calls.reverse.find? (fun k => decide (k.part = p ∧ k.Accepted sort))

/-- **C193** Only the last accepted call about each setting counts: two objects with the same ones are the same, so that everything that can be asked of them has the
same answer, however they got there. -/
theorem C193_same (sort : List (Ray ℝ) → List (Ray ℝ)) (c : Cfg) (calls calls' : List XrfCall)
    (h : ∀ p, lastCall sort p calls = lastCall sort p calls') : xrfRun sort c calls = xrfRun sort c calls' := by
  classical
  have key : ∀ (calls : List XrfCall) (p : Part),
      (lastCall sort p calls = none → SamePart (xrfRun sort c calls) c p) ∧
      (∀ k, lastCall sort p calls = some k → SamePart (xrfRun sort c calls) (xrfStep sort Config.new k).2 p) := by
    intro calls p
    unfold lastCall
    refine ⟨fun hn => (C193_last sort c p).2 calls (fun k' hk' ha hp => ?_), fun k hk => ?_⟩
    · have := List.find?_eq_none.1 hn k' (List.mem_reverse.2 hk')
      exact this (by simpa using ⟨hp, ha⟩)
    · obtain ⟨hk1, as, bs, hs, hk2⟩ := List.find?_eq_some_iff_append.1 hk
      have hk1 : k.part = p ∧ k.Accepted sort := by simpa using hk1
      have hc : calls = bs.reverse ++ k :: as.reverse := by
        rw [← List.reverse_reverse calls, hs]
        simp
      rw [hc]
      refine (C193_last sort c p).1 _ _ k hk1.1 hk1.2 (fun k' hk' ha hp => ?_)
      have := hk2 k' (List.mem_reverse.1 hk')
      simp only [Bool.not_eq_true', decide_eq_false_iff_not] at this
      exact this ⟨hp, ha⟩
  refine same_all (fun p => ?_) ?_
  · cases hl : lastCall sort p calls' with
    | none => exact ((key calls p).1 ((h p).trans hl)).trans ((key calls' p).1 hl).symm
    | some k => exact ((key calls p).2 k ((h p).trans hl)).trans ((key calls' p).2 k hl).symm
  · rw [run_materials, run_materials]

/-- **C193** (violated) The name of a configuration file cannot be given to the constructor as `str`, not even an empty one: `fisx.XRF("file.cfg")` raises
`TypeError` for every file. -/
theorem C193_constructor_violated (sort : List (Ray ℝ) → List (Ray ℝ)) (cv : Conv ℝ) (fs : String → Option Str) (n : String) :
    newXrf sort cv fs (some (.str n)) = .raises .typeError := rfl

/-- **C193** (partial) Without a file, or with an empty name as `bytes`, the constructor makes the default configuration. With a name as `bytes` it makes the object
that reading this file (its name given as `str` or as `bytes`) makes of a new one, and raises the exception that this raises. What is missing: `str`. -/
theorem C193_constructor_partial (sort : List (Ray ℝ) → List (Ray ℝ)) (cv : Conv ℝ) (fs : String → Option Str) :
    newXrf sort cv fs none = .value Config.new ∧ newXrf sort cv fs (some (.bytes "")) = .value Config.new ∧
      ∀ n, n ≠ "" → newXrf sort cv fs (some (.bytes n)) =
        (xrfRead sort cv fs Config.new (.str n)).1.bind (fun _ => .value (xrfRead sort cv fs Config.new (.str n)).2) := by
  refine ⟨rfl, rfl, fun n hn => ?_⟩
  have h : n.toList ≠ [] := fun h => hn (by rw [← String.toList_inj, h]; rfl)
  unfold newXrf xrfRead
  simp only [stdString, toBytes, onState, do_bind, value_bind, if_neg h]
  rfl

/-- **C193** Reading a configuration file is what it is in C++, for a name given as `str` or as `bytes`; its exceptions become exceptions of Python. -/
theorem C193_read (sort : List (Ray ℝ) → List (Ray ℝ)) (cv : Conv ℝ) (fs : String → Option Str) (c : Cfg) (name : Text) :
    xrfRead sort cv fs c name = (guarded (Config.read Detector.setActiveArea sort cv c (fs name.get)).1,
      (Config.read Detector.setActiveArea sort cv c (fs name.get)).2) := by
  unfold xrfRead
  rw [stdString_toBytes]
  rfl

/-- A beam, a sample, a sample that is refused (no layer has the index 1), another beam: the last beam and the first sample count. -/
example (sort : List (Ray ℝ) → List (Ray ℝ)) :
    (XrfCall.setSample [.three (.str "Fe") (some 7.8) (some 1)] (some 1)).Accepted sort → False := by
  unfold XrfCall.Accepted
  simp [xrfStep, setSample, fillLayers, layersOf, threeFields, toDouble, stdString, toBytes, onState, Config.setSample, guarded, translate,
    Result.bind, bind, pure]

example (sort : List (Ray ℝ) → List (Ray ℝ)) :
    (XrfCall.setSample [.three (.str "Fe") (some 7.8) (some 1)] none).Accepted sort ∧
    (XrfCall.setBeam (.one 20) none none none).Accepted sort := by
  constructor
  · unfold XrfCall.Accepted
    simp [xrfStep, setSample, fillLayers, layersOf, threeFields, toDouble, stdString, toBytes, onState, Config.setSample, guarded,
      Result.bind, bind, pure]
  · rfl

/-! ## The rates -/

section rates

variable (pf : String → Outcome (SMap String ℝ)) (fuel : Nat) (L : Library ℝ) (c : Cfg)

/-- PyXRF.pyx:341-342: the items over which the loop runs: those of a list, the characters of a `str`, the numbers of a `bytes` (`none`). -/
def itemsOf : Names → List (Option Text)
  | .text (.str s) => (charsOf s).map some
  | .text (.bytes s) => s.toList.map (fun _ => none)
  | .many l => l.map some

/-- PyXRF.pyx:306-351, `getMultilayerFluorescence`, for Python 3. `entries` is the map of C++ behind a line. -/
noncomputable def xrfMultilayer (entries : Multilayer.Leaf ℝ → SMap String ℝ) (srt : List (String × ℝ) → List (String × ℝ))
    (o : Multilayer.Options ℝ) (g : Bool) (overwriting : Beam ℝ) (int : Str → Option Int) (elementFamilyLayer : Names) : Result (Obj ℝ) := do
  let items ← stdStrings (itemsOf elementFamilyLayer)
  let r ← guarded (Multilayer.fluorescenceStrings pf fuel L c srt o g overwriting int (items.map String.toList))
  return toStringKeysAndValues (resultDict entries r)

/-- PyXRF.pyx:442-447: what `getFluorescence` gives back. -/
noncomputable def xrfFluorescence (entries : Multilayer.Leaf ℝ → SMap String ℝ) (srt : List (String × ℝ) → List (String × ℝ))
    (o : Multilayer.Options ℝ) (g : Bool) (overwriting : Beam ℝ) (elementNames : Names) (sampleLayer : Arg Int) (lineFamily : Names) :
    Result (Obj ℝ) := do
  let r ← getFluorescence pf fuel L c srt o g overwriting elementNames sampleLayer lineFamily
  return toStringKeysAndValues (resultDict entries r)

variable {pf fuel L c}

theorem fluorescence_maps {srt : List (String × ℝ) → List (String × ℝ)} {o : Multilayer.Options ℝ} {g : Bool} {b : Beam ℝ}
    {reqs : List (Outcome Xrf.Request)} {r : Multilayer.Result ℝ}
    (h : Multilayer.fluorescence pf fuel L srt c o g b reqs = .ok r) : ∃ env rays, Multilayer.calculate env o reqs rays = .ok r := by
  unfold Multilayer.fluorescence at h
  obtain ⟨comps, _, h⟩ := Outcome.bind_eq_ok.1 h
  obtain ⟨rays, _, h⟩ := Outcome.bind_eq_ok.1 h
  obtain ⟨geoms, _, h⟩ := Outcome.bind_eq_ok.1 h
  exact ⟨_, _, h⟩

/-- **C194** A list of requests, each given as `str` or as `bytes`, is the list of these requests in C++; what C++ gives comes back with `str` keys, and
an exception of C++ is raised in Python. -/
theorem C194_strings (entries : Multilayer.Leaf ℝ → SMap String ℝ) (srt : List (String × ℝ) → List (String × ℝ))
    (o : Multilayer.Options ℝ) (g : Bool) (b : Beam ℝ) (int : Str → Option Int) (items : List Text) :
    xrfMultilayer pf fuel L c entries srt o g b int (.many items) =
      (guarded (Multilayer.fluorescenceStrings pf fuel L c srt o g b int (items.map (fun t => t.get.toList)))).bind
        (fun r => .value (toStringKeysAndValues (resultDict entries r))) := by
  unfold xrfMultilayer itemsOf
  rw [stdStrings_some, do_bind, value_bind, do_bind, List.map_map]
  rfl

/-- **C194** Both methods give rates that can be looked up: `rates["Fe K"][0]["KL3"]["rate"]` is the number that the calculation of C++ has for this entry, of
any request, layer, line and name, and a `KeyError` exactly when it has none; all names are `str`. -/
theorem C194_lookup (entries : Multilayer.Leaf ℝ → SMap String ℝ) (he : ∀ l, (entries l).Sorted)
    (srt : List (String × ℝ) → List (String × ℝ)) (o : Multilayer.Options ℝ) (g : Bool) (b : Beam ℝ) (int : Str → Option Int) {d : Obj ℝ} :
    (∀ items : List Text, xrfMultilayer pf fuel L c entries srt o g b int (.many items) = .value d →
      ∃ r, Multilayer.fluorescenceStrings pf fuel L c srt o g b int (items.map (fun t => t.get.toList)) = .ok r ∧ StrKeys d ∧
        ∀ (k : String) (i : Nat) (t : Str) (n : String),
          d.path? [.text (.str k), .index i, .text (.str (String.ofList t)), .text (.str n)] =
            (Multilayer.leaf? r k i t).bind (fun l => ((entries l).find? n).map Obj.num)) ∧
    (∀ e s f, xrfFluorescence pf fuel L c entries srt o g b e s f = .value d →
      ∃ r, getFluorescence pf fuel L c srt o g b e s f = .value r ∧ StrKeys d ∧
        ∀ (k : String) (i : Nat) (t : Str) (n : String),
          d.path? [.text (.str k), .index i, .text (.str (String.ofList t)), .text (.str n)] =
            (Multilayer.leaf? r k i t).bind (fun l => ((entries l).find? n).map Obj.num)) := by
  have vec : ∀ {e s f} {r : Multilayer.Result ℝ}, Multilayer.fluorescenceVectors pf fuel L c srt o g b e s f = .ok r →
      StrKeys (toStringKeysAndValues (resultDict entries r)) ∧ ∀ (k : String) (i : Nat) (t : Str) (n : String),
        (toStringKeysAndValues (resultDict entries r)).path? [.text (.str k), .index i, .text (.str (String.ofList t)), .text (.str n)] =
          (Multilayer.leaf? r k i t).bind (fun l => ((entries l).find? n).map Obj.num) := by
    intro e s f r h
    unfold Multilayer.fluorescenceVectors at h
    obtain ⟨env, rays, h⟩ := fluorescence_maps h
    exact ⟨(C169_rates env o _ rays h entries he "" 0 [] "").2, fun k i t n => (C169_rates env o _ rays h entries he k i t n).1⟩
  constructor
  · intro items h
    rw [C194_strings] at h
    cases hr : Multilayer.fluorescenceStrings pf fuel L c srt o g b int (items.map (fun t => t.get.toList)) with
    | ok r =>
      rw [hr] at h
      cases h
      unfold Multilayer.fluorescenceStrings at hr
      obtain ⟨rs, _, hr⟩ := Outcome.bind_eq_ok.1 hr
      exact ⟨r, rfl, vec hr⟩
    | throw x => rw [hr] at h; cases h
    | ub x => rw [hr] at h; cases h
    | diverge => rw [hr] at h; cases h
  · intro e s f h
    unfold xrfFluorescence at h
    obtain ⟨r, hr, h⟩ := bind_eq_value.1 h
    cases h
    refine ⟨r, hr, ?_⟩
    unfold getFluorescence at hr
    obtain ⟨a, _, hr⟩ := bind_eq_value.1 hr
    cases hv : Multilayer.fluorescenceVectors pf fuel L c srt o g b a.1 a.2.1 a.2.2 with
    | ok r' =>
      rw [hv] at hr
      cases hr
      exact vec hv
    | throw x => rw [hv] at hr; cases hr
    | ub x => rw [hv] at hr; cases hr
    | diverge => rw [hv] at hr; cases hr

/-- **C194** The two methods agree: requests as strings "Fe K 0" (elements, families and numbers of layers without spaces) have the rates of the lists of their
elements, layers and families. -/
theorem C194_agree (entries : Multilayer.Leaf ℝ → SMap String ℝ) (srt : List (String × ℝ) → List (String × ℝ))
    (o : Multilayer.Options ℝ) (g : Bool) (b : Beam ℝ) (int : Str → Option Int) (reqs : List (Str × Str × Str × Int)) (hne : reqs ≠ [])
    (h : ∀ q ∈ reqs, Xrf.Token q.1 ∧ Xrf.Token q.2.1 ∧ Xrf.Token q.2.2.1 ∧ int q.2.2.1 = some q.2.2.2) :
    xrfMultilayer pf fuel L c entries srt o g b int
        (.many (reqs.map (fun q => .str (String.ofList (q.1 ++ ' ' :: (q.2.1 ++ ' ' :: q.2.2.1)))))) =
      xrfFluorescence pf fuel L c entries srt o g b (.many (reqs.map (fun q => .str (String.ofList q.1))))
        (.many (reqs.map (fun q => q.2.2.2))) (.many (reqs.map (fun q => .str (String.ofList q.2.1)))) := by
  rw [C194_strings]
  have hp : Xrf.parseRequests int ((reqs.map (fun q => (Text.str (String.ofList (q.1 ++ ' ' :: (q.2.1 ++ ' ' :: q.2.2.1)))))).map
      (fun t => t.get.toList)) = .ok (reqs.map (fun q => ⟨String.ofList q.1, String.ofList q.2.1, q.2.2.2⟩)) := by
    rw [Xrf.C54_list, List.map_map, List.forall₂_map_left_iff, List.forall₂_map_right_iff]
    refine List.forall₂_same.2 (fun q hq => ?_)
    obtain ⟨h1, h2, h3, h4⟩ := h q hq
    have := (Xrf.C54_parse int q.1 q.2.1 q.2.2.1 h1 h2 h3).2.2.1 _ h4
    simpa [Text.get] using this
  unfold Multilayer.fluorescenceStrings
  rw [hp, Outcome.ok_bind]
  have ha : fluorescenceArgs (.many (reqs.map (fun q => .str (String.ofList q.1)))) (.many (reqs.map (fun q => q.2.2.2)))
      (.many (reqs.map (fun q => .str (String.ofList q.2.1)))) =
      .value (reqs.map (fun q => String.ofList q.1), reqs.map (fun q => q.2.2.2), reqs.map (fun q => String.ofList q.2.1)) := by
    have key : ∀ (a : Text) (as : List Text) (x : Text) (xs : List Text) (n : Int) (ns : List Int), xs.length = as.length → ns.length = as.length →
        fluorescenceArgs (.many (a :: as)) (.many (n :: ns)) (.many (x :: xs)) =
          .value ((a :: as).map Text.get, n :: ns, (x :: xs).map Text.get) := by
      intro a as x xs n ns h1 h2
      unfold fluorescenceArgs
      have e0 : elementList (.many (a :: as)) = .value (a :: as) := rfl
      have e1 : familyList (.many (x :: xs)) = (x :: xs).map some := rfl
      have e2 : layerList (.many (n :: ns)) = n :: ns := rfl
      rw [e0, do_bind, value_bind]
      dsimp only
      rw [if_neg (by rw [e1]; simp [h1]), if_neg (by rw [e2]; simp [h2]), stdStrings_some, do_bind, value_bind, e1, stdStrings_some,
        do_bind, value_bind]
      rfl
    obtain ⟨q, rest, rfl⟩ := List.exists_cons_of_ne_nil hne
    simp only [List.map_cons]
    rw [key _ _ _ _ _ _ (by simp) (by simp)]
    simp [Text.get]
  unfold xrfFluorescence getFluorescence
  rw [ha, value_bind, do_bind]
  simp only [List.map_map]
  rfl

/-- **C194** A `str` that is not in a list asks for each of its characters. -/
theorem C194_text (entries : Multilayer.Leaf ℝ → SMap String ℝ) (srt : List (String × ℝ) → List (String × ℝ))
    (o : Multilayer.Options ℝ) (g : Bool) (b : Beam ℝ) (int : Str → Option Int) (s : String) :
    xrfMultilayer pf fuel L c entries srt o g b int (.text (.str s)) =
      xrfMultilayer pf fuel L c entries srt o g b int (.many (s.toList.map (fun x => .str (String.singleton x)))) := rfl

example : Xrf.Token "Fe".toList ∧ Xrf.Token "K".toList ∧ Xrf.Token "0".toList := by
  refine ⟨⟨by decide, by decide⟩, ⟨by decide, by decide⟩, ⟨by decide, by decide⟩⟩

end rates

end Python
end Fisx
