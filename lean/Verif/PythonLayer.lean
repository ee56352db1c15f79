import Verif.PythonXrf
import Verif.PythonCaches

/-!
# Questions about a layer in PyXRF (C195)

The coefficients, the transmission and the composition of a layer, and the solid angle of the detector, asked of the calculator in Python
(PyXRF.pyx:223-304, 449-450), with the interface of Python 3.
-/

set_option linter.unusedSectionVars false

namespace Fisx
namespace Python

section model

variable (pf : String → Outcome (SMap String ℝ)) (fuel : Nat) (L : Library ℝ) (c : Cfg)

/-- fisx_elements.cpp:1058-1068, 1137-1142: the entries of the map of coefficients, in the order of a `std::map`. -/
noncomputable def coefficientEntries : List (String × (Mix ℝ → ℝ)) :=
  [("coherent", Mix.coherent), ("compton", Mix.compton), ("energy", Mix.energy), ("pair", Mix.pair),
   ("photoelectric", Mix.photoelectric), ("total", Mix.total)]

/-- PyXRF.pyx:227-257, `getLayerMassAttenuationCoefficients`: at one energy numbers, at several lists. -/
noncomputable def xrfLayerMus (l : Layer ℝ) (energies : Arg ℝ) : Result (List (Text × Arg ℝ)) :=
  match energies with
  | .one e => do
    let m ← guarded (Multilayer.layerMu pf fuel L c l e [])
    toStringKeys (.dict (coefficientEntries.map (fun p => (Text.bytes p.1, Arg.one (p.2 m)))))
  | .many es => do
    let ms ← guarded (Multilayer.layerMus pf fuel L c l es [])
    toStringKeys (.dict (coefficientEntries.map (fun p => (Text.bytes p.1, Arg.many (ms.map p.2)))))

/-- PyXRF.pyx:259-295, `getLayerTransmission`: at one energy a number, at several a list. `angle = none` is the default, 90. -/
noncomputable def xrfLayerTransmission (l : Layer ℝ) (energies : Arg ℝ) (angle : Option ℝ) : Result (Arg ℝ) :=
  match energies with
  | .one e => do
    let t ← guarded (Multilayer.layerTransmission pf fuel L c l e (angle.getD 90) [])
    return .one t
  | .many es => do
    let ts ← guarded (Multilayer.layerTransmissions pf fuel L c l es (angle.getD 90) [])
    return .many ts

/-- PyXRF.pyx:449-450, `getGeometricEfficiency`. -/
noncomputable def xrfGeometricEfficiency (layerIndex : Option Int) : Result ℝ :=
  guarded (Xrf.getGeometricEfficiency c (layerIndex.getD 0))

end model

/-! ## Specification -/

/-- A dictionary with the six coefficients under their names as `str`, and nothing else; `v` shows a coefficient. -/
structure Tells (d : List (Text × Arg ℝ)) (v : (Mix ℝ → ℝ) → Arg ℝ) : Prop where
  energy : lookup d (.str "energy") = some (v Mix.energy)
  coherent : lookup d (.str "coherent") = some (v Mix.coherent)
  compton : lookup d (.str "compton") = some (v Mix.compton)
  pair : lookup d (.str "pair") = some (v Mix.pair)
  photoelectric : lookup d (.str "photoelectric") = some (v Mix.photoelectric)
  total : lookup d (.str "total") = some (v Mix.total)
  size : d.length = 6

/-- The mass per area that a beam at this angle (in degrees) to the surface goes through. -/
noncomputable def seen (l : Layer ℝ) (angle : ℝ) : ℝ :=
  if angle = 90 then l.density * l.thickness else l.density * l.thickness / Real.sin (|angle| * Real.pi / 180)

/-! ## Proofs -/

section

variable {pf : String → Outcome (SMap String ℝ)} {fuel : Nat} {L : Library ℝ} {c : Cfg} {l : Layer ℝ}

theorem tells_entries (v : (Mix ℝ → ℝ) → Arg ℝ) :
    Tells ((coefficientEntries.map (fun p => (Text.bytes p.1, v p.2))).map (fun p => (toStr p.1, p.2))) v := by
  constructor <;> rfl

theorem layerMus_iff {es : List ℝ} (hes : es ≠ []) {ms : List (Mix ℝ)} :
    Multilayer.layerMus pf fuel L c l es [] = .ok ms ↔ List.Forall₂ (fun e m => Multilayer.layerMu pf fuel L c l e [] = .ok m) es ms := by
  have h0 : ¬ ([] : SMap String ℝ).length > 0 := by simp
  unfold Multilayer.layerMus Multilayer.layerMu
  simp only [if_neg h0]
  cases Multilayer.layerComposition pf fuel L c l with
  | ok m =>
    simp only [Outcome.ok_bind]
    exact Library.C31_energies pf L fuel m es hes false ms
  | throw x =>
    obtain ⟨e, rest, rfl⟩ := List.exists_cons_of_ne_nil hes
    constructor
    · intro h; cases h
    · intro h
      cases h with
      | cons h _ => cases h
  | ub x =>
    obtain ⟨e, rest, rfl⟩ := List.exists_cons_of_ne_nil hes
    constructor
    · intro h; cases h
    · intro h
      cases h with
      | cons h _ => cases h
  | diverge =>
    obtain ⟨e, rest, rfl⟩ := List.exists_cons_of_ne_nil hes
    constructor
    · intro h; cases h
    · intro h
      cases h with
      | cons h _ => cases h

theorem guarded_iff {α : Type} {x : Outcome α} {a : α} : guarded x = .value a ↔ x = .ok a := by
  cases x <;> simp [guarded]

theorem xrfLayerMus_one {e : ℝ} {d : List (Text × Arg ℝ)} (h : xrfLayerMus pf fuel L c l (.one e) = .value d) :
    ∃ m, Multilayer.layerMu pf fuel L c l e [] = .ok m ∧ Tells d (fun f => .one (f m)) := by
  simp only [xrfLayerMus] at h
  obtain ⟨m, hm, h⟩ := bind_eq_value.1 h
  cases h
  exact ⟨m, guarded_iff.1 hm, tells_entries (fun f => .one (f m))⟩

theorem xrfLayerMus_value {e : ℝ} {m : Mix ℝ} (h : Multilayer.layerMu pf fuel L c l e [] = .ok m) :
    ∃ d, xrfLayerMus pf fuel L c l (.one e) = .value d := by
  simp only [xrfLayerMus]
  rw [h]
  exact ⟨_, rfl⟩

theorem layerMu_energy {e : ℝ} {m : Mix ℝ} (h : Multilayer.layerMu pf fuel L c l e [] = .ok m) :
    m.total = m.coherent + m.compton + m.pair + m.photoelectric := by
  unfold Multilayer.layerMu at h
  rw [if_neg (by simp)] at h
  obtain ⟨q, _, h⟩ := Outcome.bind_eq_ok.1 h
  unfold Library.mixMu at h
  obtain ⟨a, _, h⟩ := Outcome.bind_eq_ok.1 h
  obtain ⟨s, _, h⟩ := Outcome.bind_eq_ok.1 h
  simp only [Outcome.pure_eq, Outcome.ok.injEq] at h
  subst h
  rfl

/-! ## The properties -/

/-- **C195** The coefficients of a layer at an energy: the six numbers of C++ (with the materials of the calculator), under their names as `str`; the total is the
sum of the four processes. What C++ throws is raised in Python, and there is nothing else. -/
theorem C195_coefficients (e : ℝ) :
    (∀ d, xrfLayerMus pf fuel L c l (.one e) = .value d →
      ∃ m, Multilayer.layerMu pf fuel L c l e [] = .ok m ∧ m.total = m.coherent + m.compton + m.pair + m.photoelectric ∧
        Tells d (fun f => .one (f m))) ∧
    (∀ m, Multilayer.layerMu pf fuel L c l e [] = .ok m → ∃ d, xrfLayerMus pf fuel L c l (.one e) = .value d) ∧
    (∀ x, Multilayer.layerMu pf fuel L c l e [] = .throw x → xrfLayerMus pf fuel L c l (.one e) = .raises (translate x)) := by
  refine ⟨fun d h => ?_, fun m h => xrfLayerMus_value h, fun x h => ?_⟩
  · obtain ⟨m, h1, h2⟩ := xrfLayerMus_one h
    exact ⟨m, h1, layerMu_energy h1, h2⟩
  · simp only [xrfLayerMus]
    rw [h]
    rfl

/-- **C195** At several energies: each entry is the list of the numbers that the same question gives at each of the energies, in their order; there is an answer
exactly when there is one at each of them. -/
theorem C195_energies (es : List ℝ) (hes : es ≠ []) :
    (∀ d, xrfLayerMus pf fuel L c l (.many es) = .value d → ∃ ms : List (Mix ℝ), Tells d (fun f => .many (ms.map f)) ∧
      List.Forall₂ (fun e m => ∃ d', xrfLayerMus pf fuel L c l (.one e) = .value d' ∧ Tells d' (fun f => .one (f m))) es ms) ∧
    ((∃ d, xrfLayerMus pf fuel L c l (.many es) = .value d) ↔ ∀ e ∈ es, ∃ d, xrfLayerMus pf fuel L c l (.one e) = .value d) := by
  have one : ∀ {e : ℝ} {m : Mix ℝ}, Multilayer.layerMu pf fuel L c l e [] = .ok m →
      ∃ d', xrfLayerMus pf fuel L c l (.one e) = .value d' ∧ Tells d' (fun f => .one (f m)) := by
    intro e m h
    obtain ⟨d', hd⟩ := xrfLayerMus_value h
    obtain ⟨m', h1, h2⟩ := xrfLayerMus_one hd
    rw [h] at h1
    cases h1
    exact ⟨d', hd, h2⟩
  have many : ∀ d, xrfLayerMus pf fuel L c l (.many es) = .value d → ∃ ms : List (Mix ℝ), Tells d (fun f => .many (ms.map f)) ∧
      List.Forall₂ (fun e m => ∃ d', xrfLayerMus pf fuel L c l (.one e) = .value d' ∧ Tells d' (fun f => .one (f m))) es ms := by
    intro d h
    simp only [xrfLayerMus] at h
    obtain ⟨ms, hm, h⟩ := bind_eq_value.1 h
    cases h
    exact ⟨ms, tells_entries (fun f => .many (ms.map f)), ((layerMus_iff hes).1 (guarded_iff.1 hm)).imp (fun _ _ h => one h)⟩
  refine ⟨many, fun ⟨d, h⟩ e he => ?_, fun h => ?_⟩
  · obtain ⟨ms, _, hf⟩ := many d h
    obtain ⟨i, hi, rfl⟩ := List.getElem_of_mem he
    have := List.forall₂_iff_get.1 hf
    obtain ⟨d', h1, _⟩ := this.2 i hi (this.1 ▸ hi)
    exact ⟨d', h1⟩
  · have : ∃ ms, List.Forall₂ (fun e m => Multilayer.layerMu pf fuel L c l e [] = .ok m) es ms := by
      clear many hes
      induction es with
      | nil => exact ⟨[], List.Forall₂.nil⟩
      | cons e es ih =>
        obtain ⟨ms, hms⟩ := ih (fun e' h' => h e' (List.mem_cons_of_mem _ h'))
        obtain ⟨d, hd⟩ := h e List.mem_cons_self
        obtain ⟨m, hm, _⟩ := xrfLayerMus_one hd
        exact ⟨m :: ms, List.Forall₂.cons hm hms⟩
    obtain ⟨ms, hms⟩ := this
    simp only [xrfLayerMus]
    rw [(layerMus_iff hes).2 hms]
    exact ⟨_, rfl⟩

theorem massThickness_seen {a : ℝ} (hs : a = 90 ∨ Real.sin (|a| * Real.pi / 180) ≠ 0) : l.massThickness a = .fin (seen l a) := by
  unfold Layer.massThickness seen
  by_cases h : a = 90
  · rw [if_pos h, if_pos h]
  · rw [if_neg h, if_neg h]
    have hs := hs.resolve_left h
    have e : (if a < 0 then Real.sin (-a * Real.pi / 180) else Real.sin (a * Real.pi / 180)) = Real.sin (|a| * Real.pi / 180) := by
      split
      · rename_i hn
        rw [abs_of_neg hn]
      · rename_i hn
        rw [abs_of_nonneg (not_lt.1 hn)]
    dsimp only
    rw [e, if_neg hs]

theorem seen_right (l : Layer ℝ) : seen l (-90) = seen l 90 := by
  have : |(-90 : ℝ)| * Real.pi / 180 = Real.pi / 2 := by rw [abs_neg, abs_of_pos (by norm_num)]; ring
  unfold seen
  rw [if_neg (by norm_num), if_pos rfl, this, Real.sin_pi_div_two, div_one]

theorem massThickness_neg (a : ℝ) : l.massThickness (-a) = l.massThickness a := by
  have hr : l.massThickness (-90) = l.massThickness 90 := by
    have : |(-90 : ℝ)| * Real.pi / 180 = Real.pi / 2 := by rw [abs_neg, abs_of_pos (by norm_num)]; ring
    rw [massThickness_seen (a := -90) (Or.inr (by rw [this, Real.sin_pi_div_two]; norm_num)), massThickness_seen (a := 90) (Or.inl rfl), seen_right]
  by_cases h : a = 90
  · subst h
    exact hr
  by_cases h' : a = -90
  · subst h'
    rw [neg_neg, hr]
  have e : (if -a < 0 then Real.sin (- -a * Real.pi / 180) else Real.sin (-a * Real.pi / 180)) =
      if a < 0 then Real.sin (-a * Real.pi / 180) else Real.sin (a * Real.pi / 180) := by
    rcases lt_trichotomy a 0 with hn | hn | hn
    · rw [if_neg (show ¬ -a < 0 by linarith), if_pos hn]
    · subst hn
      simp
    · rw [if_pos (show -a < 0 by linarith), if_neg (show ¬ a < 0 by linarith), neg_neg]
  unfold Layer.massThickness
  rw [if_neg (show ¬ -a = 90 from fun e => h' (by linarith)), if_neg h]
  dsimp only
  rw [e]

theorem transmissions_iff {es : List ℝ} {a : ℝ} {ts : List ℝ} :
    Multilayer.layerTransmissions pf fuel L c l es a [] = .ok ts ↔ Layer.nonPositive (l.massThickness a) = false ∧
      ∃ ms, Multilayer.layerMus pf fuel L c l es [] = .ok ms ∧
        ts = ms.map (fun m => Multilayer.finite (Layer.transmissionOf l.funnyFactor (l.massThickness a) m.total)) := by
  unfold Multilayer.layerTransmissions Layer.getTransmissions
  dsimp only
  by_cases hp : Layer.nonPositive (l.massThickness a) = true
  · rw [if_pos hp, hp]
    constructor
    · intro h; cases h
    · intro h; exact absurd h.1 (by simp)
  · rw [if_neg hp]
    have hp' : Layer.nonPositive (l.massThickness a) = false := by simpa using hp
    cases hm : Multilayer.layerMus pf fuel L c l es [] with
    | ok ms =>
      simp only [Outcome.ok_bind, Outcome.pure_eq, Outcome.ok.injEq, List.map_map, Function.comp_def]
      constructor
      · rintro rfl
        exact ⟨hp', ms, rfl, rfl⟩
      · rintro ⟨_, ms', h, rfl⟩
        rw [h]
    | throw x =>
      constructor
      · intro h; cases h
      · rintro ⟨_, ms', h, _⟩; cases h
    | ub x =>
      constructor
      · intro h; cases h
      · rintro ⟨_, ms', h, _⟩; cases h
    | diverge =>
      constructor
      · intro h; cases h
      · rintro ⟨_, ms', h, _⟩; cases h

theorem transmission_iff {e a t : ℝ} :
    Multilayer.layerTransmission pf fuel L c l e a [] = .ok t ↔ Layer.nonPositive (l.massThickness a) = false ∧
      ∃ m, Multilayer.layerMu pf fuel L c l e [] = .ok m ∧
        t = Multilayer.finite (Layer.transmissionOf l.funnyFactor (l.massThickness a) m.total) := by
  have hone : ∀ m, Multilayer.layerMu pf fuel L c l e [] = .ok m → Multilayer.layerMus pf fuel L c l [e] [] = .ok [m] :=
    fun m h => (layerMus_iff (by simp)).2 (List.Forall₂.cons h List.Forall₂.nil)
  unfold Multilayer.layerTransmission
  constructor
  · intro h
    obtain ⟨ts, h1, h2⟩ := Outcome.bind_eq_ok.1 h
    obtain ⟨hp, ms, h3, rfl⟩ := transmissions_iff.1 h1
    have := (layerMus_iff (by simp)).1 h3
    cases this with
    | cons hm hn =>
      cases hn
      refine ⟨hp, _, hm, ?_⟩
      cases h2
      rfl
  · rintro ⟨hp, m, hm, rfl⟩
    rw [transmissions_iff.2 ⟨hp, [m], hone m hm, rfl⟩]
    rfl

theorem xrfTransmission_one {e : ℝ} {a : Option ℝ} {t : Arg ℝ} :
    xrfLayerTransmission pf fuel L c l (.one e) a = .value t ↔
      ∃ x, Multilayer.layerTransmission pf fuel L c l e (a.getD 90) [] = .ok x ∧ t = .one x := by
  simp only [xrfLayerTransmission]
  constructor
  · intro h
    obtain ⟨x, hx, h⟩ := bind_eq_value.1 h
    cases h
    exact ⟨x, guarded_iff.1 hx, rfl⟩
  · rintro ⟨x, hx, rfl⟩
    rw [hx]
    rfl

/-- **C195** The transmission at an energy, for a layer that the beam goes through at an angle: with the total coefficient `mu` that the calculator gives for the
layer, the covered part of the layer lets through `exp (- mass per area * mu)` and the rest everything. There is one exactly when the layer has some mass on the way
of the beam and there is a coefficient. -/
theorem C195_transmission (e : ℝ) (angle : Option ℝ) (hs : angle.getD 90 = 90 ∨ Real.sin (|angle.getD 90| * Real.pi / 180) ≠ 0) (t : Arg ℝ) :
    xrfLayerTransmission pf fuel L c l (.one e) angle = .value t ↔ 0 < seen l (angle.getD 90) ∧
      ∃ d mu, xrfLayerMus pf fuel L c l (.one e) = .value d ∧ lookup d (.str "total") = some (.one mu) ∧
        t = .one ((1 - l.funnyFactor) + l.funnyFactor * Real.exp (-(seen l (angle.getD 90) * mu))) := by
  rw [xrfTransmission_one]
  generalize angle.getD 90 = a at hs
  constructor
  · rintro ⟨x, hx, rfl⟩
    obtain ⟨hp, m, hm, rfl⟩ := transmission_iff.1 hx
    rw [massThickness_seen hs] at hp ⊢
    obtain ⟨d, hd⟩ := xrfLayerMus_value hm
    obtain ⟨m', hm', htells⟩ := xrfLayerMus_one hd
    rw [hm] at hm'
    cases hm'
    refine ⟨?_, d, m.total, hd, htells.total, rfl⟩
    simpa [Layer.nonPositive] using hp
  · rintro ⟨hp, d, mu, hd, hl, rfl⟩
    obtain ⟨m, hm, htells⟩ := xrfLayerMus_one hd
    have hmu : mu = m.total := by
      have := htells.total
      rw [hl] at this
      cases this
      rfl
    subst hmu
    refine ⟨_, transmission_iff.2 ⟨?_, m, hm, rfl⟩, ?_⟩
    · rw [massThickness_seen hs]; simpa [Layer.nonPositive] using hp
    · rw [massThickness_seen hs]; rfl

/-- **C195** Without an angle the beam is at a right angle to the layer; an angle below the surface is one above it; a layer without mass on the way of the beam is
refused with `RuntimeError`, whatever it is made of. -/
theorem C195_angle (energies : Arg ℝ) (angle : ℝ) :
    xrfLayerTransmission pf fuel L c l energies none = xrfLayerTransmission pf fuel L c l energies (some 90) ∧
    xrfLayerTransmission pf fuel L c l energies (some (-angle)) = xrfLayerTransmission pf fuel L c l energies (some angle) ∧
    (angle = 90 ∨ Real.sin (|angle| * Real.pi / 180) ≠ 0 → seen l angle ≤ 0 →
      xrfLayerTransmission pf fuel L c l energies (some angle) = .raises .runtimeError) := by
  refine ⟨rfl, ?_, fun hs hp => ?_⟩
  · have key : ∀ es, Multilayer.layerTransmissions pf fuel L c l es (-angle) [] = Multilayer.layerTransmissions pf fuel L c l es angle [] := by
      intro es
      unfold Multilayer.layerTransmissions Layer.getTransmissions
      rw [massThickness_neg angle]
    cases energies with
    | one e =>
      simp only [xrfLayerTransmission, Option.getD_some, Multilayer.layerTransmission]
      rw [key]
    | many es =>
      simp only [xrfLayerTransmission, Option.getD_some]
      rw [key]
  · have key : ∀ es, Multilayer.layerTransmissions pf fuel L c l es angle [] = .throw .runtimeError := by
      intro es
      unfold Multilayer.layerTransmissions Layer.getTransmissions
      rw [massThickness_seen hs]
      dsimp only
      rw [if_pos (by simpa [Layer.nonPositive] using hp)]
      rfl
    cases energies with
    | one e =>
      simp only [xrfLayerTransmission, Option.getD_some, Multilayer.layerTransmission]
      rw [key]
      rfl
    | many es =>
      simp only [xrfLayerTransmission, Option.getD_some]
      rw [key]
      rfl

/-- **C195** At several energies: a list with the number that the same question gives at each of them, in their order; there is an answer exactly when there is one
at each. -/
theorem C195_transmissions (es : List ℝ) (hes : es ≠ []) (angle : Option ℝ) :
    (∀ t, xrfLayerTransmission pf fuel L c l (.many es) angle = .value t → ∃ ts : List ℝ, t = .many ts ∧
      List.Forall₂ (fun e x => xrfLayerTransmission pf fuel L c l (.one e) angle = .value (.one x)) es ts) ∧
    ((∃ t, xrfLayerTransmission pf fuel L c l (.many es) angle = .value t) ↔
      ∀ e ∈ es, ∃ t, xrfLayerTransmission pf fuel L c l (.one e) angle = .value t) := by
  have many : ∀ t, xrfLayerTransmission pf fuel L c l (.many es) angle = .value t → ∃ ts : List ℝ, t = .many ts ∧
      List.Forall₂ (fun e x => xrfLayerTransmission pf fuel L c l (.one e) angle = .value (.one x)) es ts := by
    intro t h
    simp only [xrfLayerTransmission] at h
    obtain ⟨ts, h1, h⟩ := bind_eq_value.1 h
    cases h
    exact ⟨ts, rfl, (Multilayer.layerTransmissions_each (guarded_iff.1 h1)).imp
      (fun _ _ h => xrfTransmission_one.2 ⟨_, h, rfl⟩)⟩
  refine ⟨many, fun ⟨t, h⟩ e he => ?_, fun h => ?_⟩
  · obtain ⟨ts, _, hf⟩ := many t h
    obtain ⟨i, hi, rfl⟩ := List.getElem_of_mem he
    have := List.forall₂_iff_get.1 hf
    exact ⟨_, this.2 i hi (this.1 ▸ hi)⟩
  · have hp : Layer.nonPositive (l.massThickness (angle.getD 90)) = false := by
      obtain ⟨e, rest, rfl⟩ := List.exists_cons_of_ne_nil hes
      obtain ⟨t, ht⟩ := h e List.mem_cons_self
      obtain ⟨x, hx, _⟩ := xrfTransmission_one.1 ht
      exact (transmission_iff.1 hx).1
    have : ∃ ms, List.Forall₂ (fun e m => Multilayer.layerMu pf fuel L c l e [] = .ok m) es ms := by
      clear many hes
      induction es with
      | nil => exact ⟨[], List.Forall₂.nil⟩
      | cons e es ih =>
        obtain ⟨ms, hms⟩ := ih (fun e' h' => h e' (List.mem_cons_of_mem _ h'))
        obtain ⟨t, ht⟩ := h e List.mem_cons_self
        obtain ⟨x, hx, _⟩ := xrfTransmission_one.1 ht
        obtain ⟨_, m, hm, _⟩ := transmission_iff.1 hx
        exact ⟨m :: ms, List.Forall₂.cons hm hms⟩
    obtain ⟨ms, hms⟩ := this
    simp only [xrfLayerTransmission]
    rw [transmissions_iff.2 ⟨hp, ms, (layerMus_iff hes).2 hms, rfl⟩]
    exact ⟨_, rfl⟩

/-- **C195** (violated) The composition of a layer, as the calculator gives it, cannot be handed to the library to ask for its coefficients: its names are `str`,
and the library raises `TypeError`. -/
theorem C195_composition_violated (d : List (Text × ℝ)) (h : xrfLayerComposition pf fuel L c l = .value d) (hd : d ≠ []) (energy : Arg ℝ) :
    getDictCoefficients pf L fuel d energy = .raises .typeError := by
  unfold xrfLayerComposition at h
  obtain ⟨m, _, h⟩ := bind_eq_value.1 h
  cases h
  obtain ⟨p, rest, hm⟩ := List.exists_cons_of_ne_nil hd
  cases m with
  | nil => exact absurd rfl hd
  | cons q m =>
    refine C151_composition_violated pf fuel L _ q.1 q.2 ?_ energy
    simp [toStr]

/-- **C195** (partial) With its names made `bytes`, the composition of a layer has in the library the coefficients that the calculator gives for the layer. What is
missing: `str`. (The composition is a map of C++, with its names in order.) -/
theorem C195_composition_partial (d : List (Text × ℝ)) (h : xrfLayerComposition pf fuel L c l = .value d)
    (hm : ∀ m, Multilayer.layerComposition pf fuel L c l = .ok m → m.Sorted) (e : ℝ) :
    (∀ d', xrfLayerMus pf fuel L c l (.one e) = .value d' →
      ∃ r, getDictCoefficients pf L fuel (toBytesKeys d) (.one e) = .value [r] ∧ Tells d' (fun f => .one (f r))) ∧
    (∀ r, getDictCoefficients pf L fuel (toBytesKeys d) (.one e) = .value r → ∃ d', xrfLayerMus pf fuel L c l (.one e) = .value d') := by
  unfold xrfLayerComposition at h
  obtain ⟨m, hm1, h⟩ := bind_eq_value.1 h
  have hm1 := guarded_iff.1 hm1
  cases h
  have hb : ∀ p ∈ toBytesKeys ((m.map (fun p => (Text.bytes p.1, p.2))).map (fun p => (toStr p.1, p.2))), ∃ s, p.1 = .bytes s := by
    intro p hp
    obtain ⟨q, _, rfl⟩ := List.mem_map.1 hp
    exact ⟨q.1.get, by cases q.1 <;> rfl⟩
  have hdict : dictOf (toBytesKeys ((m.map (fun p => (Text.bytes p.1, p.2))).map (fun p => (toStr p.1, p.2)))) = m := by
    unfold dictOf toBytesKeys
    simp only [List.map_map, Function.comp_def]
    have : (List.map (fun x : String × ℝ => ((toBytes (toStr (Text.bytes x.1))).get, x.2)) m) = m := by
      conv_rhs => rw [← List.map_id m]
      exact List.map_congr_left (fun p _ => rfl)
    rw [this]
    exact SMap.ofList_eq_self (hm m hm1)
  have hg : getDictCoefficients pf L fuel (toBytesKeys ((m.map (fun p => (Text.bytes p.1, p.2))).map (fun p => (toStr p.1, p.2)))) (.one e) =
      guarded (Multilayer.layerMus pf fuel L c l [e] []) := by
    rw [(C151_composition_partial pf fuel L _ hb (.one e)).1, hdict]
    unfold Multilayer.layerMus
    rw [if_neg (by simp), hm1]
    rfl
  refine ⟨fun d' hd' => ?_, fun r hr => ?_⟩
  · obtain ⟨r, hr, ht⟩ := xrfLayerMus_one hd'
    refine ⟨r, ?_, ht⟩
    rw [hg, (layerMus_iff (by simp)).2 (List.Forall₂.cons hr List.Forall₂.nil)]
    rfl
  · rw [hg] at hr
    have := (layerMus_iff (by simp)).1 (guarded_iff.1 hr)
    cases this with
    | cons h1 _ => exact xrfLayerMus_value h1

/-- **C195** What is asked about a layer does not depend on any setting of the calculator: calls that set something, accepted or not, change no answer. -/
theorem C195_settings (sort : List (Ray ℝ) → List (Ray ℝ)) (calls : List XrfCall) (energies : Arg ℝ) (angle : Option ℝ) :
    xrfLayerMus pf fuel L (xrfRun sort c calls) l energies = xrfLayerMus pf fuel L c l energies ∧
    xrfLayerTransmission pf fuel L (xrfRun sort c calls) l energies angle = xrfLayerTransmission pf fuel L c l energies angle ∧
    xrfLayerComposition pf fuel L (xrfRun sort c calls) l = xrfLayerComposition pf fuel L c l := by
  have h : ∀ l, Multilayer.layerComposition pf fuel L (xrfRun sort c calls) l = Multilayer.layerComposition pf fuel L c l := by
    intro l
    unfold Multilayer.layerComposition
    rw [run_materials]
  have hmu : Multilayer.layerMu pf fuel L (xrfRun sort c calls) l = Multilayer.layerMu pf fuel L c l := by
    funext e comp
    unfold Multilayer.layerMu
    rw [h]
  have hmus : Multilayer.layerMus pf fuel L (xrfRun sort c calls) l = Multilayer.layerMus pf fuel L c l := by
    funext e comp
    unfold Multilayer.layerMus
    rw [h]
  have ht : Multilayer.layerTransmissions pf fuel L (xrfRun sort c calls) l = Multilayer.layerTransmissions pf fuel L c l := by
    funext e a comp
    unfold Multilayer.layerTransmissions
    rw [hmus]
  have ht1 : Multilayer.layerTransmission pf fuel L (xrfRun sort c calls) l = Multilayer.layerTransmission pf fuel L c l := by
    funext e a comp
    unfold Multilayer.layerTransmission
    rw [ht]
  refine ⟨?_, ?_, ?_⟩
  · unfold xrfLayerMus
    rw [hmu, hmus]
  · unfold xrfLayerTransmission
    rw [ht1, ht]
  · unfold xrfLayerComposition
    rw [h]

/-- **C195** The solid angle of the detector depends on the sample, the detector and the geometry only: other calls do not change it, nor the exceptions. Without a
layer it is the one of layer 0, and it is a part of the whole sphere. -/
theorem C195_efficiency (sort : List (Ray ℝ) → List (Ray ℝ)) (i : Option Int) :
    (∀ calls : List XrfCall, (∀ k ∈ calls, k.part ≠ .sample ∧ k.part ≠ .detector ∧ k.part ≠ .geometry) →
      xrfGeometricEfficiency (xrfRun sort c calls) i = xrfGeometricEfficiency c i) ∧
    xrfGeometricEfficiency c none = xrfGeometricEfficiency c (some 0) ∧
    (∀ v, xrfGeometricEfficiency c i = .value v → 0 ≤ v ∧ v ≤ 1) ∧ (∀ e, xrfGeometricEfficiency c i ≠ .aborts e) := by
  refine ⟨fun calls h => ?_, rfl, fun v hv => Multilayer.geometric_range (guarded_iff.1 hv), fun e => guarded_not_aborts _ e⟩
  obtain ⟨h1, h2⟩ := run_keeps sort .sample calls c (fun k hk _ => (h k hk).1)
  have h3 : (xrfRun sort c calls).detector = c.detector := run_keeps sort .detector calls c (fun k hk _ => (h k hk).2.1)
  obtain ⟨_, h4, _⟩ := run_keeps sort .geometry calls c (fun k hk _ => (h k hk).2.2)
  unfold xrfGeometricEfficiency Xrf.getGeometricEfficiency
  rw [h1, h2, h3, h4]

/-- A new calculator has a detector without a size, and gives 1 for every layer; with a detector set and no sample, the index of the reference layer was never set. -/
example : xrfGeometricEfficiency (Config.new : Cfg) (some 3) = .value 1 := by
  unfold xrfGeometricEfficiency Xrf.getGeometricEfficiency
  simp [Config.new, Config.defaultDetector, Detector.new, guarded]

/-- The angle 30 is as asked by `C195_transmission`, and layers of positive density and thickness have mass on the way. -/
example : Real.sin (|(30 : ℝ)| * Real.pi / 180) ≠ 0 := by
  have : |(30 : ℝ)| * Real.pi / 180 = Real.pi / 6 := by rw [abs_of_pos (by norm_num)]; ring
  rw [this, Real.sin_pi_div_six]
  norm_num

end

end Python
end Fisx
