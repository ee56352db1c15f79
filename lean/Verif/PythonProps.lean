import Verif.Python

/-!
# Properties of the Python interface: C144-C152
-/

set_option linter.unusedSectionVars false

namespace Fisx
namespace Python

theorem value_bind {α β : Type _} (a : α) (f : α → Result β) : (Result.value a).bind f = f a := rfl
theorem raises_bind {α β : Type _} (e : PyErr) (f : α → Result β) : (Result.raises e : Result α).bind f = .raises e := rfl
theorem do_bind {α β : Type} (x : Result α) (f : α → Result β) : (x >>= f) = x.bind f := rfl
theorem pure_value {α : Type} (a : α) : (pure a : Result α) = .value a := rfl

theorem bind_eq_value {α β : Type _} {x : Result α} {f : α → Result β} {b : β} :
    x.bind f = .value b ↔ ∃ a, x = .value a ∧ f a = .value b := by
  cases x with
  | value a => simp [Result.bind]
  | raises e => simp [Result.bind]
  | aborts e => simp [Result.bind]
  | ub u => simp [Result.bind]
  | hangs => simp [Result.bind]

theorem bind_not_aborts {α β : Type _} {x : Result α} {f : α → Result β} (hx : ∀ e, x ≠ .aborts e)
    (hf : ∀ a e, f a ≠ .aborts e) (e : Exc) : x.bind f ≠ .aborts e := by
  cases x with
  | value a => exact hf a e
  | raises _ => intro h; cases h
  | aborts e' => exact absurd rfl (hx e')
  | ub _ => intro h; cases h
  | hangs => intro h; cases h

theorem guarded_not_aborts {α : Type _} (x : Outcome α) (e : Exc) : guarded x ≠ .aborts e := by
  cases x <;> intro h <;> cases h

/-! ## C144: a call that fails raises an exception -/

section abort

variable {K : Type} [Field K] [LinearOrder K] [IsStrictOrderedRing K]

/-- **C144** (violated) getTransmission of a layer without thickness ends the process, at normal incidence and for all
energies and libraries; the same call of a detector raises `RuntimeError`. -/
theorem C144_layer_transmission_violated (pf : String → Outcome (SMap String ℝ)) (fuel : Nat) (L : Library ℝ)
    (name : String) (density thickness funny : ℝ) (h : density * thickness ≤ 0) (energies : Arg ℝ) :
    layerTransmission pf fuel L (Layer.new name density thickness funny) energies 90 = .aborts .runtimeError ∧
    detectorTransmission pf fuel L (Layer.new name density thickness funny) energies 90 = .raises .runtimeError := by
  have hd : Layer.nonPositive ((Layer.new name density thickness funny).massThickness 90) = true := by
    simp [Layer.massThickness, Layer.nonPositive, Layer.new, h]
  constructor
  · unfold layerTransmission layerTransmissions Layer.getTransmissions
    simp only [hd, if_true, bare]
  · unfold detectorTransmission layerTransmissions Layer.getTransmissions
    simp only [hd, if_true, guarded, translate]

/-- **C144** The exception that Python shows for one of C++: `ValueError` for `std::invalid_argument` and `std::domain_error`, `IOError`
for failures of streams, `IndexError` for `std::out_of_range`, `RuntimeError` for `std::runtime_error` and `std::length_error`. -/
theorem C144_exceptions {α : Type} (o : Outcome α) :
    (guarded o = .raises .valueError ↔ o = .throw .invalidArgument ∨ o = .throw .domainError) ∧
    (guarded o = .raises .ioError ↔ o = .throw .ioFailure) ∧
    (guarded o = .raises .indexError ↔ o = .throw .outOfRange) ∧
    (guarded o = .raises .runtimeError ↔ o = .throw .runtimeError ∨ o = .throw .lengthError) ∧
    (∀ a, guarded o = .value a ↔ o = .ok a) := by
  cases o with
  | throw e => cases e <;> simp [guarded, translate]
  | _ => simp [guarded]

/-- **C144** (violated) getBindingEnergies of EPDL97 with an atomic number below one ends the process. -/
theorem C144_epdl_violated (e : EPDL97 K) (z : Int) (hz : z < 1) :
    epdlBindingEnergies e z = .aborts .runtimeError := by
  unfold epdlBindingEnergies EPDL97.getBindingEnergies
  rw [if_pos hz]
  rfl

/-- **C144** (violated) getComposition of a layer made of something that the library cannot resolve ends the process, the
same question asked through a configuration without materials raises an exception. -/
theorem C144_layer_composition_violated (pf : String → Outcome (SMap String ℝ)) (fuel : Nat) (L : Library ℝ)
    (l : Layer ℝ) (e : Exc) (h : l.composition pf fuel L = .throw e) :
    layerComposition pf fuel L l = .aborts e := by
  unfold layerComposition
  rw [h]
  rfl

/-- **C144** (partial) All the methods declared with `except +` raise an exception whatever happens, and the two methods of
a layer that are declared without end the process exactly when the C++ call throws: for a layer with a positive mass
thickness, made of what the library knows, they do not. -/
theorem C144_no_abort_partial (pf : String → Outcome (SMap String ℝ)) (fuel : Nat) (L : Library ℝ) (l : Layer ℝ) :
    (∀ energies angle e, detectorTransmission pf fuel L l energies angle ≠ .aborts e) ∧
    (∀ srt energy e, layerPeakFamilies pf fuel srt L l energy ≠ .aborts e) ∧
    (∀ {R : Type} (c : Config ℝ R) e, xrfLayerComposition pf fuel L c l ≠ .aborts e) ∧
    (∀ {R : Type} (c : Config ℝ R) srt energy e, xrfLayerPeakFamilies pf fuel L c srt l energy ≠ .aborts e) ∧
    (∀ e, layerComposition pf fuel L l = .aborts e ↔ l.composition pf fuel L = .throw e) ∧
    (∀ energies ms, 0 < l.density * l.thickness →
      (if l.hasMaterial then L.mixMus pf fuel l.material.composition (beamEnergies energies) false
        else L.nameMus pf fuel l.materialName (beamEnergies energies)) = .ok ms →
      layerTransmission pf fuel L l energies 90 = .value (ms.map (fun m =>
        .fin ((1 - l.funnyFactor) + l.funnyFactor * Real.exp (-(l.density * l.thickness * m.total)))))) := by
  refine ⟨fun _ _ e => guarded_not_aborts _ e, fun _ _ e => ?_, fun c e => ?_, fun c _ _ e => ?_, fun e => ?_,
    fun energies ms hpos hms => ?_⟩
  · exact bind_not_aborts (guarded_not_aborts _) (fun a e h => by cases h) e
  · exact bind_not_aborts (guarded_not_aborts _) (fun a e h => by cases h) e
  · exact bind_not_aborts (guarded_not_aborts _) (fun a e h => by cases h) e
  · unfold layerComposition
    cases hx : l.composition pf fuel L with
    | ok a => simp [bare, Result.bind, toStringKeys]
    | throw x => simp [bare, Result.bind]
    | ub u => simp [bare, Result.bind]
    | diverge => simp [bare, Result.bind]
  · have hd : l.massThickness 90 = .fin (l.density * l.thickness) := by simp [Layer.massThickness]
    have hn : Layer.nonPositive (Layer.Ext.fin (l.density * l.thickness)) = false := by
      simp [Layer.nonPositive, hpos]
    unfold layerTransmission layerTransmissions Layer.getTransmissions
    simp only [hd, hn, hms, Bool.false_eq_true, if_false, Outcome.ok_bind, Outcome.pure_eq, bare, List.map_map]
    rfl

/-- A layer of no thickness, and a library that knows nothing. -/
example : layerTransmission (fun _ => .throw .invalidArgument) 3
      { dict := [], elements := [], materials := [], escapeOn := false, escape := [], escapeKey := ⟨[], 0, 0, 0, 0, 0⟩ }
      (Layer.new "Fe" 1 0 1) (.one 10) 90 = .aborts .runtimeError :=
  (C144_layer_transmission_violated _ _ _ "Fe" 1 0 1 (by norm_num) _).1

end abort

/-! ## C145, C146: getFluorescence -/

theorem stdStrings_length : ∀ {l : List (Option Text)} {r : List String}, stdStrings l = .value r → r.length = l.length
  | [], r, h => by cases h; rfl
  | none :: _, r, h => by cases h
  | some t :: rest, r, h => by
    unfold stdStrings at h
    rw [do_bind, bind_eq_value] at h
    obtain ⟨s, _, h⟩ := h
    rw [do_bind, bind_eq_value] at h
    obtain ⟨l, hl, h⟩ := h
    cases h
    simp [stdStrings_length hl]

/-- The text of an object. -/
def Text.get : Text → String
  | .str s => s
  | .bytes s => s

theorem stdString_toBytes (t : Text) : stdString (toBytes t) = .value t.get := by cases t <;> rfl

theorem stdStrings_some : ∀ (l : List Text), stdStrings (l.map some) = .value (l.map Text.get)
  | [] => rfl
  | t :: rest => by
    simp only [List.map_cons, stdStrings, do_bind]
    rw [stdString_toBytes, value_bind, stdStrings_some rest]
    rfl

theorem args_lengths {n : Names} {s : Arg Int} {f : Names} {a : List String × List Int × List String}
    (h : fluorescenceArgs n s f = .value a) :
    a.2.2.length = a.1.length ∧ a.2.1 = layerList s ∧ (a.2.1.length ≤ 1 ∨ a.2.1.length = a.1.length) ∧ a.1 ≠ [] := by
  unfold fluorescenceArgs at h
  rw [do_bind, bind_eq_value] at h
  obtain ⟨els, hels, h⟩ := h
  dsimp only at h
  split at h
  · cases h
  rename_i hlen
  split at h
  · cases h
  rename_i hlay
  rw [do_bind, bind_eq_value] at h
  obtain ⟨e, he, h⟩ := h
  rw [do_bind, bind_eq_value] at h
  obtain ⟨g, hg, h⟩ := h
  cases h
  have h1 := stdStrings_length he
  have h2 := stdStrings_length hg
  rw [List.length_map] at h1
  have hne : els ≠ [] := by
    cases n with
    | text t =>
      cases t with
      | str s' =>
        simp only [elementList] at hels
        split at hels
        · cases hels
        · rename_i hs
          cases hels
          simpa [charsOf] using hs
      | bytes s' =>
        simp only [elementList] at hels
        split at hels
        · cases hels
        · cases hels; simp
    | many l =>
      cases l with
      | nil => simp [elementList] at hels
      | cons t l => simp only [elementList] at hels; cases hels; simp
  refine ⟨?_, rfl, ?_, ?_⟩
  · dsimp only; omega
  · dsimp only; omega
  · dsimp only
    intro h0
    rw [h0] at h1
    exact hne (List.length_eq_zero_iff.1 h1.symm)

/-- **C145** (partial) Whatever is given for the names, the families and the layers, as long as the layers are not an empty
list: the call raises an exception, or it hands over vectors from which C++ makes every request without reading past
their end. -/
theorem C145_no_overrun_partial (n f : Names) (s : Arg Int) (hs : s ≠ .many [])
    (a : List String × List Int × List String) (h : fluorescenceArgs n s f = .value a) :
    a.2.2.length = a.1.length ∧ ∀ q ∈ Multilayer.requestsOf a.2.2 a.2.1 0 a.1, ∃ r, q = .ok r := by
  obtain ⟨h1, h2, h3, h4⟩ := args_lengths h
  refine ⟨h1, Multilayer.C118_enough_partial a.1 a.2.2 a.2.1 (by omega) ?_⟩
  have hpos : 0 < a.2.1.length := by
    rw [h2]
    cases s with
    | one _ => simp [layerList]
    | many l =>
      cases l with
      | nil => exact absurd rfl hs
      | cons _ _ => simp [layerList]
  rcases h3 with h3 | h3
  · left; omega
  · by_cases h5 : a.2.1.length = 1
    · left; exact h5
    · right; omega

/-- Two elements, each with its family and its layer. -/
example : fluorescenceArgs (.many [.str "Cr", .str "Pb"]) (.many [0, 1]) (.many [.str "K", .str "L3"]) =
    .value (["Cr", "Pb"], [0, 1], ["K", "L3"]) := by decide +kernel

/-- **C145** (violated) An empty list of layers passes the checks, and C++ reads the first item of an empty vector as soon
as a ray is treated. -/
theorem C145_no_layer_violated {R : Type} (pf : String → Outcome (SMap String ℝ)) (fuel : Nat) (L : Library ℝ)
    (srt : List (String × ℝ) → List (String × ℝ)) (o : Multilayer.Options ℝ) (e : ℝ) (he : 0 ≤ e) (element family : Text) :
    getFluorescence pf fuel L (Config.new : Config ℝ R) srt o false { normalized := true, rays := [⟨e, 1, 1, 0⟩] }
      (.many [element]) (.many []) (.many [family]) = .ub .outOfBounds := by
  have h : fluorescenceArgs (.many [element]) (.many []) (.many [family]) =
      .value ([element.get], [], [family.get]) := by
    unfold fluorescenceArgs
    have e1 := stdStrings_some [element]
    have e2 := stdStrings_some [family]
    simp only [elementList, familyList, layerList, do_bind, value_bind, List.length_map, List.length_cons, List.length_nil,
      ne_eq, not_true_eq_false, if_false, gt_iff_lt, Nat.not_lt_zero, false_and] 
    rw [e1, value_bind, e2]
    rfl
  unfold getFluorescence
  rw [h, value_bind]
  dsimp only
  rw [(Multilayer.C118_short_vectors_violated pf fuel L o srt e he element.get family.get [] [] []).2]
  rfl

/-- **C146** (violated) A single name given as a `str` of two or more characters is refused for every family of one
character, the default "K" among them. -/
theorem C146_single_name_violated (name family : String) (hn : 2 ≤ name.toList.length) (hf : family.toList.length = 1)
    (s : Arg Int) : fluorescenceArgs (.text (.str name)) s (.text (.str family)) = .raises .indexError := by
  have h1 : name.toList ≠ [] := by intro h; rw [h] at hn; simp at hn
  have h2 : family.toList ≠ [] := by intro h; rw [h] at hf; simp at hf
  unfold fluorescenceArgs
  simp only [elementList, familyList, h1, h2, if_false, do_bind, value_bind, List.length_map, charsOf]
  rw [if_pos (by rw [hf]; omega)]

/-- **C146** (violated) A single family of two characters is refused for a single element. -/
theorem C146_single_family_violated (name : Text) (family : String) (hf : family.toList.length = 2) (s : Arg Int) :
    fluorescenceArgs (.many [name]) s (.text (.str family)) = .raises .indexError := by
  have h2 : family.toList ≠ [] := by intro h; rw [h] at hf; simp at hf
  unfold fluorescenceArgs
  simp only [elementList, familyList, h2, if_false, do_bind, value_bind, List.length_map, charsOf, hf]
  rfl

example : 2 ≤ "Cr".toList.length ∧ "K".toList.length = 1 ∧ "L1".toList.length = 2 := by decide

/-- **C146** (partial) An element given as a list of one name, or a name of one letter, or a `bytes` object, with its family
as a list of one name or as one letter, and with one layer, given as a number or in a list: the call is that of C++ for
the element, the layer and the family. -/
theorem C146_one_request_partial {R : Type} (pf : String → Outcome (SMap String ℝ)) (fuel : Nat) (L : Library ℝ)
    (c : Config ℝ R) (srt : List (String × ℝ) → List (String × ℝ)) (o : Multilayer.Options ℝ) (g : Bool) (b : Beam ℝ)
    (element family : String) (layer : Int) (n f : Names) (s : Arg Int)
    (hn : n = .many [.str element] ∨ (element ≠ "" ∧ n = .text (.bytes element)) ∨
      (element.toList.length = 1 ∧ n = .text (.str element)))
    (hf : f = .many [.str family] ∨ (family.toList.length = 1 ∧ f = .text (.str family)))
    (hs : s = .one layer ∨ s = .many [layer]) (hfam : family ≠ "") (hl : 0 ≤ layer) :
    getFluorescence pf fuel L c srt o g b n s f = guarded (Multilayer.fluorescenceOne pf fuel L c srt o g b element layer family) := by
  have single : ∀ x : String, x.toList.length = 1 → charsOf x = [.str x] := by
    intro x hx
    obtain ⟨ch, hch⟩ := List.length_eq_one_iff.1 hx
    unfold charsOf
    rw [hch]
    simp only [List.map_cons, List.map_nil, List.cons.injEq, Text.str.injEq, and_true]
    rw [← String.toList_inj, hch]
    simp
  have hels : ∃ t, elementList n = .value [t] ∧ t.get = element := by
    rcases hn with rfl | ⟨hne, rfl⟩ | ⟨h1, rfl⟩
    · exact ⟨.str element, rfl, rfl⟩
    · refine ⟨.bytes element, ?_, rfl⟩
      have : element.toList ≠ [] := by
        intro h; exact hne (String.toList_inj.1 (by rw [h]; rfl))
      simp [elementList, this]
    · refine ⟨.str element, ?_, rfl⟩
      have : element.toList ≠ [] := by intro h; rw [h] at h1; simp at h1
      simp only [elementList, this, if_false]
      rw [single element h1]
  have hfams : familyList f = [some (.str family)] := by
    rcases hf with rfl | ⟨h1, rfl⟩
    · rfl
    · have : family.toList ≠ [] := by intro h; rw [h] at h1; simp at h1
      simp only [familyList, this, if_false]
      rw [single family h1]
      rfl
  have hlay : layerList s = [layer] := by rcases hs with rfl | rfl <;> rfl
  obtain ⟨t, ht, htg⟩ := hels
  have hargs : fluorescenceArgs n s f = .value ([element], [layer], [family]) := by
    unfold fluorescenceArgs
    rw [ht, do_bind, value_bind, hfams, hlay]
    have e1 := stdStrings_some [t]
    have e2 := stdStrings_some [Text.str family]
    simp only [List.map_cons, List.map_nil] at e1 e2
    simp only [List.length_cons, List.length_nil, ne_eq, not_true_eq_false, if_false, gt_iff_lt, lt_irrefl, false_and,
      List.map_cons, List.map_nil, do_bind, Nat.zero_add]
    rw [e1, value_bind, e2, htg]
    rfl
  unfold getFluorescence Multilayer.fluorescenceOne
  rw [hargs, value_bind, if_neg hfam, if_neg (by omega)]

end Python

/-! ## C147: the beam -/

namespace Python

section beam

variable {K R : Type} [Field K] [LinearOrder K] [IsStrictOrderedRing K]

theorem expected_replicate {α : Type} (x : α) (n i : Nat) (h : i < n) : Beam.expected (List.replicate n x) x i = x := by
  match n with
  | 0 => omega
  | 1 => rfl
  | n + 2 =>
    show (List.replicate (n + 2) x).getD i x = x
    simp [List.getD_eq_getElem?_getD, List.getElem?_replicate, h]

theorem covers_replicate {α : Type} (x : α) (n : Nat) : Beam.Covers (List.replicate n x) n := by
  right; simp

/-- The beam does not depend on whether the flags and the divergencies are given as vectors of default values or not at
all. -/
theorem setBeam_defaults (sort : List (Ray K) → List (Ray K)) (b b' : Beam K) (es ws : List K)
    (hw : Beam.Covers ws es.length) :
    b.setBeam sort es ws (List.replicate es.length 1) (List.replicate es.length 0) = b'.setBeam sort es ws [] [] := by
  by_cases hne : es = []
  · subst hne; simp [Beam.setBeam]
  rw [Beam.setBeam_result sort b es ws _ _ hne hw (covers_replicate _ _) (covers_replicate _ _),
    Beam.setBeam_result sort b' es ws [] [] hne hw (Or.inl (by simp)) (Or.inl (by simp))]
  congr 2
  apply List.map_congr_left
  intro i hi
  have hi : i < es.length := List.mem_range.1 hi
  simp only [Beam.expectedRay, expected_replicate _ _ _ hi]
  rfl

/-- Weights that both calls understand in the same way: none, a number other than zero, or a list that covers the
energies. -/
def Plain (n : Nat) : Option (Arg K) → Prop
  | none => True
  | some (.one w) => w ≠ 0
  | some (.many l) => Beam.Covers l n

theorem setBeam_ones (sort : List (Ray K) → List (Ray K)) (b b' : Beam K) (es : List K) :
    b.setBeam sort es [] [] [] = b'.setBeam sort es (List.replicate es.length 1) [] [] := by
  by_cases hne : es = []
  · subst hne; simp [Beam.setBeam]
  rw [Beam.setBeam_result sort b es [] [] [] hne (Or.inl (by simp)) (Or.inl (by simp)) (Or.inl (by simp)),
    Beam.setBeam_result sort b' es _ [] [] hne (covers_replicate _ _) (Or.inl (by simp)) (Or.inl (by simp))]
  congr 2
  apply List.map_congr_left
  intro i hi
  have hi : i < es.length := List.mem_range.1 hi
  simp only [Beam.expectedRay, expected_replicate _ _ _ hi]
  rfl

/-- **C147** (partial) For energies given as a list, with no weights, with a common weight other than zero, or with a list
of weights that covers them, a beam of its own and the beam of the configuration are the same; for one energy given as a
number, they are the same without a weight or with a positive one. -/
theorem C147_same_beam_partial (sort : List (Ray K) → List (Ray K)) (hsort : Beam.IsSort sort) (c : Config K R) (b : Beam K) :
    (∀ es ws, Plain es.length ws →
      (xrfSetBeam sort c (.many es) ws none none).1 = .value () ∧
      (beamSetBeam sort b (.many es) ws).1 = .value () ∧
      (xrfSetBeam sort c (.many es) ws none none).2.beam = (beamSetBeam sort b (.many es) ws).2) ∧
    (∀ e ws, (ws = none ∨ ∃ w, 0 < w ∧ (ws = some (.one w) ∨ ws = some (.many [w]))) →
      (xrfSetBeam sort c (.one e) ws none none).2.beam = (beamSetBeam sort b (.one e) ws).2) := by
  constructor
  · intro es ws hp
    have hcov : Beam.Covers (beamWeights es.length ws) es.length := by
      cases ws with
      | none => exact covers_replicate _ _
      | some a =>
        cases a with
        | one w => left; simp [beamWeights]
        | many l => exact hp
    have h1 : (xrfSetBeam sort c (.many es) ws none none) =
        (.value (), { c with beam := (c.beam.setBeam sort es (beamWeights es.length ws) [] []).2 }) := by
      simp only [xrfSetBeam, vector, onState]
      rw [setBeam_defaults sort c.beam c.beam es _ hcov,
        Beam.C07_partial sort c.beam es _ [] [] hcov (Or.inl (by simp)) (Or.inl (by simp))]
      rfl
    have hcov' : Beam.Covers (ownWeights es.length ws) es.length := by
      cases ws with
      | none => exact covers_replicate _ _
      | some a =>
        cases a with
        | one w =>
          simp only [ownWeights]
          split
          · exact covers_replicate _ _
          · left; simp
        | many l =>
          cases l with
          | nil => exact covers_replicate _ _
          | cons w l => exact hp
    have h2 : beamSetBeam sort b (.many es) ws = (.value (), (b.setBeam sort es (ownWeights es.length ws) [] []).2) := by
      simp only [beamSetBeam, beamEnergies]
      rw [Beam.C07_partial sort b es _ [] [] hcov' (Or.inl (by simp)) (Or.inl (by simp))]
      rfl
    rw [h1, h2]
    refine ⟨rfl, rfl, ?_⟩
    dsimp only
    cases ws with
    | none =>
      show (c.beam.setBeam sort es (List.replicate es.length 1) [] []).2 =
        (b.setBeam sort es (List.replicate es.length 1) [] []).2
      rw [← setBeam_ones sort b b es, ← setBeam_ones sort b c.beam es]
    | some a =>
      cases a with
      | one w =>
        have : ownWeights es.length (some (.one w)) = [w] := by simp only [ownWeights]; rw [if_neg hp]
        rw [this]
        by_cases hne : es = []
        · subst hne; simp [Beam.setBeam]
        · rw [Beam.setBeam_result sort c.beam es _ [] [] hne hcov (Or.inl (by simp)) (Or.inl (by simp)),
            Beam.setBeam_result sort b es _ [] [] hne (Or.inl (by simp)) (Or.inl (by simp)) (Or.inl (by simp))]
          rfl
      | many l =>
        cases l with
        | nil => exact congrArg Prod.snd (setBeam_ones sort c.beam b es)
        | cons w l =>
          show (c.beam.setBeam sort es (w :: l) [] []).2 = (b.setBeam sort es (w :: l) [] []).2
          by_cases hne : es = []
          · subst hne; simp [Beam.setBeam]
          · rw [Beam.setBeam_result sort c.beam es _ [] [] hne hp (Or.inl (by simp)) (Or.inl (by simp)),
              Beam.setBeam_result sort b es _ [] [] hne hp (Or.inl (by simp)) (Or.inl (by simp))]
  · intro e ws hws
    have hx : (xrfSetBeam sort c (.one e) ws none none).2.beam = (c.beam.setSingleEnergyBeam sort e 0).2 := rfl
    rw [hx]
    have key : ∀ w : K, 0 < w → (c.beam.setSingleEnergyBeam sort e 0).2 = (b.setBeam sort [e] [w] [] []).2 := by
      intro w hw
      rw [Beam.setBeam_result sort b [e] [w] [] [] (by simp) (Or.inl (by simp)) (Or.inl (by simp)) (Or.inl (by simp))]
      simp only [Beam.setSingleEnergyBeam, Beam.normalizeBeam, Beam.totalWeight, List.length_singleton, List.range_one,
        List.map_cons, List.map_nil, List.sum_cons, List.sum_nil, add_zero, Beam.expectedRay, Beam.expected, gt_iff_lt,
        zero_lt_one, if_true, hw, div_one, div_self (ne_of_gt hw)]
      rfl
    rcases hws with rfl | ⟨w, hw, rfl | rfl⟩
    · exact key 1 zero_lt_one
    · have : ownWeights 1 (some (.one w)) = [w] := by simp only [ownWeights]; rw [if_neg (ne_of_gt hw)]
      show _ = (b.setBeam sort [e] (ownWeights 1 (some (.one w))) [] []).2
      rw [this]
      exact key w hw
    · exact key w hw

/-- **C147** Without weights every ray has the same weight, and the weights add up to one; the flags are 1 and the
divergencies 0. -/
theorem C147_no_weights (sort : List (Ray K) → List (Ray K)) (hsort : Beam.IsSort sort) (c : Config K R) (es : List K)
    (hne : es ≠ []) :
    (xrfSetBeam sort c (.many es) none none none).2.beam.rays.Perm
      (es.map (fun e => ⟨e, 1 / (es.length : K), 1, 0⟩)) ∧
    (xrfSetBeam sort c (.many es) none none none).2.beam.rays.Pairwise (fun r s => r.energy ≤ s.energy) := by
  have hcov : Beam.Covers (beamWeights es.length (none : Option (Arg K))) es.length := covers_replicate _ _
  have h1 : (xrfSetBeam sort c (.many es) none none none).2.beam = (c.beam.setBeam sort es (List.replicate es.length 1) [] []).2 := by
    simp only [xrfSetBeam, vector, onState]
    rw [setBeam_defaults sort c.beam c.beam es _ hcov]
    rfl
  rw [h1]
  obtain ⟨_, h2, h3, _⟩ := Beam.C06_setBeam sort hsort c.beam es (List.replicate es.length 1) [] []
    (covers_replicate _ _) (Or.inl (by simp)) (Or.inl (by simp))
  refine ⟨?_, h2⟩
  have hW : ((List.range es.length).map (Beam.expected (List.replicate es.length (1 : K)) 1)).sum = (es.length : K) := by
    have : (List.range es.length).map (Beam.expected (List.replicate es.length (1 : K)) 1)
        = List.replicate es.length 1 := by
      rw [List.eq_replicate_iff]
      refine ⟨by simp, ?_⟩
      intro x hx
      obtain ⟨i, hi, rfl⟩ := List.mem_map.1 hx
      exact expected_replicate _ _ _ (List.mem_range.1 hi)
    rw [this]
    simp
  rw [hW] at h3
  have hpos : (0 : K) < (es.length : K) := by
    have : 0 < es.length := List.length_pos_iff.2 hne
    exact_mod_cast this
  simp only [if_pos hpos] at h3
  refine h3.trans (List.Perm.of_eq ?_)
  apply List.ext_getElem
  · simp
  · intro i h1 h2
    have hi : i < es.length := by simpa using h1
    simp only [List.getElem_map, List.getElem_range, expected_replicate _ _ _ hi]
    congr 1
    simp [List.getD_eq_getElem?_getD, List.getElem?_eq_getElem hi]

/-- **C147** (violated) A weight of zero for several energies is no weight for a beam of its own, and no photon for the
beam of the configuration; a negative weight for one energy is kept by the former and ignored by the latter. -/
theorem C147_zero_weight_violated (sort : List (Ray K) → List (Ray K)) (hsort : Beam.IsSort sort) (c : Config K R) (b : Beam K)
    (es : List K) (hne : es ≠ []) (e w : K) (hw : w < 0) :
    ((xrfSetBeam sort c (.many es) (some (.one 0)) none none).2.beam.rays.map Ray.weight).sum = 0 ∧
    ((beamSetBeam sort b (.many es) (some (.one 0))).2.rays.map Ray.weight).sum = 1 ∧
    (xrfSetBeam sort c (.one e) (some (.one w)) none none).2.beam.rays = [⟨e, 1, 1, 0⟩] ∧
    (beamSetBeam sort b (.one e) (some (.one w))).2.rays = [⟨e, w, 1, 0⟩] := by
  have hpos : (0 : K) < (es.length : K) := by
    have : 0 < es.length := List.length_pos_iff.2 hne
    exact_mod_cast this
  refine ⟨?_, ?_, (Beam.C06_single sort hsort c.beam e 0).2, ?_⟩
  · have hcov : Beam.Covers (beamWeights es.length (some (Arg.one (0 : K)))) es.length := by left; simp [beamWeights]
    have h1 : (xrfSetBeam sort c (.many es) (some (.one 0)) none none).2.beam = (c.beam.setBeam sort es [0] [] []).2 := by
      simp only [xrfSetBeam, vector, onState]
      rw [setBeam_defaults sort c.beam c.beam es _ hcov]
      rfl
    rw [h1]
    obtain ⟨_, _, h3, _⟩ := Beam.C06_setBeam sort hsort c.beam es [0] [] [] (Or.inl (by simp)) (Or.inl (by simp)) (Or.inl (by simp))
    rw [(h3.map Ray.weight).sum_eq, List.map_map]
    apply List.sum_eq_zero
    intro x hx
    obtain ⟨i, _, rfl⟩ := List.mem_map.1 hx
    simp [Beam.expected]
  · have h1 : (beamSetBeam sort b (.many es) (some (.one 0))).2 = (b.setBeam sort es (List.replicate es.length 1) [] []).2 := by
      simp only [beamSetBeam, beamEnergies, ownWeights, if_true]
    rw [h1]
    obtain ⟨_, _, _, h4⟩ := Beam.C06_setBeam sort hsort b es (List.replicate es.length 1) [] [] (covers_replicate _ _)
      (Or.inl (by simp)) (Or.inl (by simp))
    apply h4
    have : (List.range es.length).map (Beam.expected (List.replicate es.length (1 : K)) 1)
        = List.replicate es.length 1 := by
      rw [List.eq_replicate_iff]
      refine ⟨by simp, ?_⟩
      intro x hx
      obtain ⟨i, hi, rfl⟩ := List.mem_map.1 hx
      exact expected_replicate _ _ _ (List.mem_range.1 hi)
    rw [this]
    simpa using hpos
  · have h1 : (beamSetBeam sort b (.one e) (some (.one w))).2 = (b.setBeam sort [e] [w] [] []).2 := by
      simp only [beamSetBeam, beamEnergies, ownWeights]
      rw [if_neg (ne_of_lt hw)]
    rw [h1]
    obtain ⟨_, _, h3, _⟩ := Beam.C06_setBeam sort hsort b [e] [w] [] [] (Or.inl (by simp)) (Or.inl (by simp)) (Or.inl (by simp))
    have hnw : ¬ (0 : K) < w := not_lt.2 hw.le
    simp only [List.length_singleton, List.range_one, List.map_cons, List.map_nil, List.sum_cons, List.sum_nil, add_zero,
      Beam.expected, List.getD_cons_zero, hnw, if_false] at h3
    exact List.perm_singleton.1 h3

example : Plain (K := ℚ) 2 (some (.many [1, 3])) ∧
    (xrfSetBeam (K := ℚ) (R := Unit) (fun l => l.insertionSort (fun a b => a.energy ≤ b.energy)) Config.new
      (.many [20, 10]) (some (.many [1, 3])) none none).2.beam.rays =
        ([⟨10, 3/4, 1, 0⟩, ⟨20, 1/4, 1, 0⟩] : List (Ray ℚ)) := by
  refine ⟨Or.inr (by decide), by decide +kernel⟩

/-- **C147** The beam of the configuration is read past the end of a vector exactly when a list of weights, flags or
divergencies has at least two items and fewer than the energies. -/
theorem C147_short_lists_violated (sort : List (Ray K) → List (Ray K)) (c : Config K R) (es ws : List K)
    (h1 : 1 < ws.length) (h2 : ws.length < es.length) :
    (xrfSetBeam sort c (.many es) (some (.many ws)) none none).1 = .ub .outOfBounds := by
  have := (Beam.C07_out_of_bounds_iff sort c.beam es ws (List.replicate es.length 1) (List.replicate es.length 0)).2
    (Or.inl ⟨h1, h2⟩)
  simp only [xrfSetBeam, vector, onState, beamWeights]
  rw [this]
  rfl

/-! ## C148: the geometry -/

/-- **C148** The scattering angle of the configuration is the given one, and the sum of the two angles when it is negative
or left out; the angles are the given ones and nothing else is changed. -/
theorem C148_geometry (c : Config K R) (a b s : K) :
    setGeometry c a b s = { c with alphaIn := a, alphaOut := b, scatteringAngle := if s < 0 then a + b else s } ∧
    (0 ≤ s → (setGeometry c a b s).scatteringAngle = s) ∧
    (setGeometry c a b (-90)).scatteringAngle = a + b := by
  have key : ∀ s, setGeometry c a b s = { c with alphaIn := a, alphaOut := b, scatteringAngle := if s < 0 then a + b else s } := by
    intro s
    unfold setGeometry Xrf.setGeometry Config.setGeometry
    by_cases h : s < 0
    · rw [if_pos h]
      split <;> simp [h]
    · rw [if_neg h, if_neg h, if_neg h]
  refine ⟨key s, fun h => ?_, ?_⟩
  · rw [key]
    simp [not_lt.2 h]
  · rw [key]
    have : (-90 : K) < 0 := by norm_num
    simp [this]

/-! ## C149: user tables -/

/-- **C149** (violated) A list of instances is refused whatever they contain, although the documentation asks for instances. -/
theorem C149_instances_violated (c : Config K R) (t : TransmissionTable K) (rest : List (TableItem K)) :
    setUserBeamFilters c (.instance_ t :: rest) = (.raises .typeError, c) ∧
    setUserAttenuators c (.instance_ t :: rest) = (.raises .typeError, c) := ⟨rfl, rfl⟩

/-- What a table is made of. -/
def tableOf : TableItem K → Outcome (TransmissionTable K)
  | .lists e t n m => match (TransmissionTable.new "" "" : TransmissionTable K).setLists e t n.get m.get with
    | (.ok _, r) => .ok r
    | (.throw x, _) => .throw x
    | (.ub u, _) => .ub u
    | (.diverge, _) => .diverge
  | .dict d n m => match (TransmissionTable.new "" "" : TransmissionTable K).setMap d n.get m.get with
    | (.ok _, r) => .ok r
    | (.throw x, _) => .throw x
    | (.ub u, _) => .ub u
    | (.diverge, _) => .diverge
  | _ => .throw .invalidArgument

theorem makeTable_eq (i : TableItem K) (hi : i.isInstance = false) : makeTable i = guarded (tableOf i) := by
  cases i with
  | instance_ _ => cases hi
  | other => rfl
  | lists e t n m =>
    simp only [makeTable, do_bind, stdString_toBytes, value_bind, tableOf]
    rcases (TransmissionTable.new "" "" : TransmissionTable K).setLists e t n.get m.get with ⟨o, r⟩
    cases o <;> rfl
  | dict d n m =>
    simp only [makeTable, do_bind, stdString_toBytes, value_bind, tableOf]
    rcases (TransmissionTable.new "" "" : TransmissionTable K).setMap d n.get m.get with ⟨o, r⟩
    cases o <;> rfl

theorem tablesOf_eq : ∀ (l : List (TableItem K)), (∀ i ∈ l, i.isInstance = false) →
    tablesOf makeTable l = guarded (each tableOf l)
  | [], _ => rfl
  | i :: rest, h => by
    simp only [tablesOf, do_bind, each]
    rw [makeTable_eq i (h i (by simp)), tablesOf_eq rest (fun j hj => h j (by simp [hj]))]
    cases tableOf i with
    | ok t => cases each tableOf rest <;> rfl
    | throw e => rfl
    | ub u => rfl
    | diverge => rfl

/-- **C149** (partial) Tables given by the arguments of setTransmissionTable: the configuration gets the tables that a new
table makes of each of them, in the order of the list, or is left as it was and the exception is that of the first one
that is refused. -/
theorem C149_arguments_partial (c : Config K R) (items : List (TableItem K)) (h : ∀ i ∈ items, i.isInstance = false) :
    (∀ l, each tableOf items = .ok l →
      setUserBeamFilters c items = (.value (), { c with userBeamFilters := l }) ∧
      setUserAttenuators c items = (.value (), { c with userAttenuators := l })) ∧
    (∀ e, each tableOf items = .throw e →
      setUserBeamFilters c items = (.raises (translate e), c) ∧ setUserAttenuators c items = (.raises (translate e), c)) := by
  have hf : fillTables items = guarded (each tableOf items) := by
    cases items with
    | nil => rfl
    | cons i rest =>
      simp only [fillTables]
      rw [h i (by simp), if_neg (by simp)]
      exact tablesOf_eq _ h
  constructor
  · intro l hl
    unfold setUserBeamFilters setUserAttenuators
    rw [hf, hl]
    exact ⟨rfl, rfl⟩
  · intro e he
    unfold setUserBeamFilters setUserAttenuators
    rw [hf, he]
    exact ⟨rfl, rfl⟩

/-- The tables of testXRF.py. -/
example : (each (tableOf (K := ℚ)) [.lists [0, 100] [1/2, 1/2] (.str "half") (.str "half intensity expected"),
      .dict [(0, 1/4), (100, 1/4)] (.str "quarter") (.str "")]).bind
        (fun l => .ok (l.map (fun t => (t.name, t.getTransmission 10)))) =
    .ok [("half", 1/2), ("quarter", 1/4)] := by
  decide +kernel

end beam

/-! ## C150: excitation factors -/

section factors

variable {K : Type} [Field K] [LinearOrder K] [IsStrictOrderedRing K] [Trans K]

/-- **C150** (violated) For a list of energies only the factors at the first one come back: the answer does not depend on
the others. For one energy given as a number a list comes back. -/
theorem C150_first_only_violated (L : Library K) (name : Text) (e : K) (es es' : List K)
    (r r' : Arg (SMap Str (Factor K)))
    (h : getExcitationFactors L name (.many (e :: es)) none = .value r)
    (h' : getExcitationFactors L name (.many (e :: es')) none = .value r') : r = r' := by
  have key : ∀ (es : List K) (r : Arg (SMap Str (Factor K))),
      getExcitationFactors L name (.many (e :: es)) none = .value r →
      ∃ f, L.getExcitationFactors name.get e 1 = .ok f ∧ r = .one f := by
    intro es r h
    simp only [getExcitationFactors, do_bind, stdString_toBytes, value_bind, vector] at h
    rw [bind_eq_value] at h
    obtain ⟨l, hl, h⟩ := h
    cases hel : L.getElement name.get with
    | throw _ => simp [Library.getExcitationFactorsList, hel, guarded, Outcome.bind] at hl
    | ub _ => simp [Library.getExcitationFactorsList, hel, guarded, Outcome.bind] at hl
    | diverge => simp [Library.getExcitationFactorsList, hel, guarded, Outcome.bind] at hl
    | ok el =>
      have hlist : el.data.getFactorsList (e :: es) (List.replicate (e :: es).length 1) = .ok l := by
        simp only [Library.getExcitationFactorsList, hel, Outcome.ok_bind] at hl
        cases hg : el.data.getFactorsList (e :: es) (List.replicate (e :: es).length 1) with
        | ok a => rw [hg] at hl; cases hl; rfl
        | throw _ => rw [hg] at hl; cases hl
        | ub _ => rw [hg] at hl; cases hl
        | diverge => rw [hg] at hl; cases hl
      have heach : ∃ f l', el.data.getFactors e 1 = .ok f ∧ l = f :: l' := by
        cases es with
        | nil =>
          have hone : List.replicate [e].length (1 : K) = [1] := rfl
          rw [hone, (Element.C75_element_factors el.data [e] [1]).2.1 1 rfl] at hlist
          unfold each at hlist
          obtain ⟨f, hf, hlist⟩ := Outcome.bind_eq_ok.1 hlist
          obtain ⟨l', _, hlist⟩ := Outcome.bind_eq_ok.1 hlist
          cases hlist
          exact ⟨f, l', hf, rfl⟩
        | cons e2 es =>
          rw [(Element.C75_element_factors el.data (e :: e2 :: es) (List.replicate (e :: e2 :: es).length 1)).2.2
            (by simp) (by simp)] at hlist
          simp only [List.length_cons, List.replicate_succ, List.zip_cons_cons] at hlist
          unfold each at hlist
          obtain ⟨f, hf, hlist⟩ := Outcome.bind_eq_ok.1 hlist
          obtain ⟨l', _, hlist⟩ := Outcome.bind_eq_ok.1 hlist
          cases hlist
          exact ⟨f, l', hf, rfl⟩
      obtain ⟨f, l', hf, rfl⟩ := heach
      refine ⟨f, ?_, ?_⟩
      · rw [Library.C75_library_factors, hel]
        exact hf
      · cases h; rfl
  obtain ⟨f, hf, rfl⟩ := key es r h
  obtain ⟨f', hf', rfl⟩ := key es' r' h'
  rw [hf] at hf'
  cases hf'
  rfl

section

attribute [local instance] Element.exampleTrans

/-- Iron with the tables of the example of C19. -/
def exampleLibrary : Library ℚ :=
  { dict := [("Fe", 0)], elements := [⟨"Fe", 56, Element.run Element.exampleElement Element.tableOps⟩], materials := [],
    escapeOn := false, escape := [], escapeKey := Library.exampleKey }

/-- The factors in an answer. -/
def rates : Result (Arg (SMap Str (Factor ℚ))) → Option (List (List ℚ))
  | .value (.one f) => some [f.map (fun p => p.2.rate)]
  | .value (.many l) => some (l.map (fun f => f.map (fun p => p.2.rate)))
  | _ => none

/-- One answer for two energies. -/
example : rates (getExcitationFactors exampleLibrary (.str "Fe") (.many [8, 9]) none) =
      rates (getExcitationFactors exampleLibrary (.str "Fe") (.many [8]) none) ∧
    (rates (getExcitationFactors exampleLibrary (.str "Fe") (.many [8, 9]) none)).isSome = true ∧
    rates (getExcitationFactors exampleLibrary (.str "Fe") (.one 8) (some (.one (1 / 2)))) ≠ none := by
  decide +kernel

end

/-- **C150** (partial) For one energy given as a number, with or without a weight, a list with the factors of that energy
and weight comes back, or the exception of C++. -/
theorem C150_one_energy_partial (L : Library K) (name : Text) (e : K) (w : Option K) :
    getExcitationFactors L name (.one e) (w.map Arg.one) =
      (guarded (L.getExcitationFactors name.get e (w.getD 1))).bind (fun f => .value (.many [f])) := by
  have hw : number (w.map Arg.one) (1 : K) = .value (w.getD 1) := by cases w <;> rfl
  simp only [getExcitationFactors, do_bind, stdString_toBytes, value_bind, hw]
  rw [Library.C75_library_factors]
  unfold Library.getExcitationFactorsList
  cases L.getElement name.get with
  | throw _ => rfl
  | ub _ => rfl
  | diverge => rfl
  | ok el =>
    simp only [Outcome.ok_bind, Outcome.bind]
    rw [(Element.C75_element_factors el.data [e] [w.getD 1]).2.1 _ rfl]
    unfold each
    cases el.data.getFactors e (w.getD 1) <;> rfl

end factors

/-! ## C151: texts -/

section texts

variable {K : Type} [Field K] [LinearOrder K] [IsStrictOrderedRing K] [Trans K]

/-- **C151** (partial) Names given as `str` and as `bytes` are the same for these calls, and the answer is that of C++. -/
theorem C151_names_partial (pf : String → Outcome (SMap String K)) (fuel : Nat) (d : Init.Database K) (L : Library K)
    (name : Text) (energy : Arg K) :
    getColumn d name = guarded (Init.getColumn d name.get) ∧
    getAtomicMass d name = guarded (Init.getAtomicMass d name.get) ∧
    getAtomicNumber d name = guarded (Init.getAtomicNumber d name.get) ∧
    getDensity d name = guarded (Init.getDensity d name.get) ∧
    getLongName d name = (guarded (Init.getLongName d name.get)).bind (fun s => .value (.str s)) ∧
    getCoefficients pf L fuel name energy = guarded (L.nameMus pf fuel name.get (beamEnergies energy)) := by
  refine ⟨?_, ?_, ?_, ?_, ?_, ?_⟩ <;>
    simp only [getColumn, getAtomicMass, getAtomicNumber, getDensity, getLongName, getCoefficients, do_bind,
      stdString_toBytes, value_bind] <;> rfl

/-- **C151** (violated) getRow refuses every name given as `str`; with a `bytes` object it works. -/
theorem C151_row_violated (d : Init.Database K) (name : String) :
    getRow d (.str name) = .raises .typeError ∧ getRow d (.bytes name) = guarded (Init.getRow d name) := ⟨rfl, rfl⟩

/-- **C151** (violated) getMassAttenuationCoefficients refuses every composition with a name given as `str`, whatever the
library, the energies and the other names. -/
theorem C151_composition_violated (pf : String → Outcome (SMap String K)) (fuel : Nat) (L : Library K)
    (comp : List (Text × K)) (name : String) (x : K) (h : (Text.str name, x) ∈ comp) (energy : Arg K) :
    getDictCoefficients pf L fuel comp energy = .raises .typeError := by
  have key : ∀ comp : List (Text × K), (Text.str name, x) ∈ comp → stdMap comp = .raises .typeError := by
    intro comp
    induction comp with
    | nil => intro h; cases h
    | cons p rest ih =>
      intro h
      obtain ⟨k, y⟩ := p
      rcases List.mem_cons.1 h with h | h'
      · cases h; rfl
      · cases k with
        | str s => rfl
        | bytes s =>
          simp only [stdMap, do_bind, stdString, value_bind]
          rw [ih h']
          rfl
  show (stdMap comp).bind _ = _
  rw [key comp h]
  rfl

/-- **C151** The keys made by `toBytesKeys` are accepted. -/
theorem C151_bytes_keys (comp : List (Text × K)) : ∃ m, stdMap (toBytesKeys comp) = .value m := by
  induction comp with
  | nil => exact ⟨[], rfl⟩
  | cons p rest ih =>
    obtain ⟨m, hm⟩ := ih
    refine ⟨if m.mem p.1.get then m else m.insert p.1.get p.2, ?_⟩
    have h1 : toBytesKeys (p :: rest) = (toBytes p.1, p.2) :: toBytesKeys rest := rfl
    rw [h1]
    simp only [stdMap, do_bind, stdString_toBytes, value_bind]
    rw [hm]
    rfl

/-- **C151** (violated) The families of peaks of a layer cannot be asked through the configuration: the call raises an
exception for every layer, energy and library for which C++ has an answer. -/
theorem C151_families_violated {R : Type} (pf : String → Outcome (SMap String ℝ)) (fuel : Nat) (L : Library ℝ)
    (c : Config ℝ R) (srt : List (String × ℝ) → List (String × ℝ)) (l : Layer ℝ) (e : ℝ) :
    (∀ r, xrfLayerPeakFamilies pf fuel L c srt l e ≠ .value r) ∧
    (∀ r, Multilayer.layerFamilies pf fuel L srt c l e [] = .ok r →
      xrfLayerPeakFamilies pf fuel L c srt l e = .raises .attributeError) := by
  constructor
  · intro r h
    obtain ⟨a, _, h⟩ := bind_eq_value.1 h
    cases h
  · intro r h
    unfold xrfLayerPeakFamilies
    rw [h]
    rfl

/-- **C151** (partial) Asked of the layer, the families come back as `str`, sorted by binding energy, and are those of
C++. -/
theorem C151_layer_families_partial (pf : String → Outcome (SMap String K)) (fuel : Nat)
    (srt : List (String × K) → List (String × K)) (L : Library K) (l : Layer K) (e : K) (r : List (String × K))
    (h : l.peakFamilies pf fuel srt L e = .ok r) :
    ∃ r', layerPeakFamilies pf fuel srt L l e = .value r' ∧ r'.Perm (r.map (fun p => (Text.str p.1, p.2))) ∧
      r'.Pairwise (fun a b => a.2 ≤ b.2) := by
  refine ⟨_, by unfold layerPeakFamilies; rw [h]; rfl, (List.mergeSort_perm _ _).map _, ?_⟩
  rw [List.pairwise_map]
  have := List.pairwise_mergeSort (le := fun a b : String × K => decide (a.2 ≤ b.2))
    (fun a b c h1 h2 => by simp only [decide_eq_true_eq] at *; exact le_trans h1 h2)
    (fun a b => by
      simp only [Bool.or_eq_true, decide_eq_true_eq]
      exact le_total _ _) r
  exact this.imp (fun h => by simpa using h)

end texts

/-! ## C152: initializeAsPyMca -/

section pymca

variable {K : Type} [Field K] [LinearOrder K] [IsStrictOrderedRing K] [Trans K]

/-- **C152** (violated) If the new object cannot be made, the Python object is left with a pointer to memory that was given
back: every later use of it is undefined behaviour. -/
theorem C152_failed_violated (on : Bool) (key : EscapeKey K) (strtod : Str → K) (fs : Init.Files) (dir : String)
    (path : String → String) (h : Handle K) (e : Exc)
    (hc : Init.construct3 on key strtod fs dir (path "BindingEnergies.dat") (path "XCOM_CrossSections.dat") = .throw e)
    {α : Type} (f : Init.Database K → Outcome α) :
    (initializeAsPyMca on key strtod fs dir path h).1 = .raises (translate e) ∧
    (initializeAsPyMca on key strtod fs dir path h).2.use f = .ub .dangling := by
  unfold initializeAsPyMca
  rw [hc]
  exact ⟨rfl, rfl⟩

attribute [local instance] Element.exampleTrans in
/-- That happens, for instance, when the files are not there. -/
example : ∃ e, Init.construct3 (K := ℚ) false ⟨[], 0, 0, 0, 0, 0⟩ (fun _ => 0) (fun _ => none) "data"
    (osJoin "data" "BindingEnergies.dat") (osJoin "data" "XCOM_CrossSections.dat") = .throw e := by
  have h : Init.loadEpdl (K := ℚ) (fun _ => 0) (fun _ => none) "data" = .throw .ioFailure := by rfl
  refine ⟨.ioFailure, ?_⟩
  unfold Init.construct3 Init.setUp
  rw [h]
  rfl

/-- The two ways to name a file of the directory lead to the same file. -/
def SameFiles (fs : Init.Files) (dir : String) : Prop :=
  ∀ file p, Init.pathOf dir file = .ok p → fs (osJoin dir file) = fs p

theorem loader_text (kind : Loader.Kind) (strtod : Str → K) (s s' : Loader.State K) (hs : s.elements = s'.elements)
    (main p p' : String) (text : Option Str) :
    (Loader.load kind strtod s main p text).1 = (Loader.load kind strtod s' main p' text).1 ∧
    (Loader.load kind strtod s main p text).2.elements = (Loader.load kind strtod s' main p' text).2.elements := by
  unfold Loader.load
  cases Loader.subshellsOf main with
  | none => exact ⟨rfl, hs⟩
  | some subs =>
    dsimp only
    split
    · exact ⟨rfl, hs⟩
    · rw [hs]
      cases (Loader.scansLoop kind strtod (Specfile.setFileName (Specfile.File.ofText text)) subs 0 s'.elements).1 <;>
        exact ⟨rfl, rfl⟩

theorem loads_same (strtod : Str → K) (fs : Init.Files) (dir : String) (hdir : dir ≠ "") (hfs : SameFiles fs dir) :
    ∀ (files : List (Loader.Kind × String × String)) (d : Init.Database K) (s : Loader.State K),
      d.lib.elements = s.elements →
      (∀ s', Init.loadFiles strtod fs dir files s = .ok s' →
        (loadPyMca strtod fs (osJoin dir) files d).1 = .value () ∧
        (loadPyMca strtod fs (osJoin dir) files d).2.lib = { d.lib with elements := s'.elements } ∧
        (loadPyMca strtod fs (osJoin dir) files d).2.epdl = d.epdl ∧
        (loadPyMca strtod fs (osJoin dir) files d).2.periodic = d.periodic) ∧
      ((loadPyMca strtod fs (osJoin dir) files d).1 = .value () → ∃ s', Init.loadFiles strtod fs dir files s = .ok s')
  | [], d, s, hd => by
    refine ⟨fun s' h => ?_, fun _ => ⟨s, rfl⟩⟩
    simp only [Init.loadFiles, Outcome.ok.injEq] at h
    subst h
    refine ⟨rfl, ?_, rfl, rfl⟩
    show d.lib = _
    rw [← hd]
  | (kind, main, file) :: rest, d, s, hd => by
    have hp : ∃ p, Init.pathOf dir file = .ok p := by
      have hne : ¬ dir.toList.length < 1 := by
        intro h
        apply hdir
        apply String.toList_inj.1
        have h0 : dir.toList.length = 0 := by omega
        rw [List.length_eq_zero_iff.1 h0]
        rfl
      unfold Init.pathOf
      rw [if_neg hne]
      split
      · exact ⟨_, rfl⟩
      · exact ⟨_, rfl⟩
    obtain ⟨p, hp⟩ := hp
    have htext := hfs file p hp
    obtain ⟨h1, h2⟩ := loader_text kind strtod { elements := d.lib.elements, files := d.files } s hd main
      (osJoin dir file) p (fs p)
    have hl : Init.loadFiles strtod fs dir ((kind, main, file) :: rest) s =
        (Loader.load kind strtod s main p (fs p)).1.bind (fun _ =>
          Init.loadFiles strtod fs dir rest (Loader.load kind strtod s main p (fs p)).2) := by
      show (Init.pathOf dir file).bind _ = _
      rw [hp]
      rfl
    rw [hl]
    simp only [loadPyMca, htext]
    rw [h1]
    cases hout : (Loader.load kind strtod s main p (fs p)).1 with
    | throw e =>
      exact ⟨fun s' h => (by cases h), fun h => (by cases h)⟩
    | ub u =>
      exact ⟨fun s' h => (by cases h), fun h => (by cases h)⟩
    | diverge =>
      exact ⟨fun s' h => (by cases h), fun h => (by cases h)⟩
    | ok u =>
      obtain ⟨i1, i2⟩ := loads_same strtod fs dir hdir hfs rest
        { d with lib := { d.lib with elements := (Loader.load kind strtod { elements := d.lib.elements, files := d.files } main
                            (osJoin dir file) (fs p)).2.elements }
                 files := (Loader.load kind strtod { elements := d.lib.elements, files := d.files } main
                            (osJoin dir file) (fs p)).2.files }
        (Loader.load kind strtod s main p (fs p)).2 h2
      exact ⟨fun s' h => i1 s' h, fun h => i2 h⟩

theorem setUp_same (on : Bool) (key : EscapeKey K) (strtod : Str → K) (fs : Init.Files) (dir b b' : String)
    (hb : b ≠ "") (hb' : b' ≠ "") (h : fs b = fs b') :
    Init.setUp on key strtod fs dir b = Init.setUp on key strtod fs dir b' := by
  have hpos : ∀ b : String, b ≠ "" → b.toList.length > 0 := by
    intro b hb
    apply List.length_pos_iff.2
    intro h0
    exact hb (String.toList_inj.1 (by rw [h0]; rfl))
  have : ∀ e : EPDL97 K, Init.otherBinding strtod fs b e = Init.otherBinding strtod fs b' e := by
    intro e
    unfold Init.otherBinding
    rw [if_pos (hpos b hb), if_pos (hpos b' hb'), h]
  unfold Init.setUp
  simp only [this]

/-- **C152** (partial) With the files of the same directory, initializeAsPyMca succeeds exactly when the constructor with the
flag of PyMca does, and then the library is the same, whatever the object was before. If the new object can be made the
pointer is valid, even when a file of shell data is refused afterwards. -/
theorem C152_as_constructed_partial (on : Bool) (key : EscapeKey K) (strtod : Str → K) (fs : Init.Files) (dir : String)
    (hdir : dir ≠ "") (hfs : SameFiles fs dir) (h : Handle K) :
    ((initializeAsPyMca on key strtod fs dir (osJoin dir) h).1 = .value () ↔
      ∃ d, Init.construct2 on key strtod fs dir true = .ok d) ∧
    (∀ d, Init.construct2 on key strtod fs dir true = .ok d →
      ∃ d', (initializeAsPyMca on key strtod fs dir (osJoin dir) h).2 = .live d' ∧ d'.lib = d.lib ∧ d'.epdl = d.epdl ∧
        d'.periodic = d.periodic) ∧
    (∀ d, Init.construct3 on key strtod fs dir (osJoin dir "BindingEnergies.dat") (osJoin dir "XCOM_CrossSections.dat") = .ok d →
      ∃ d', (initializeAsPyMca on key strtod fs dir (osJoin dir) h).2 = .live d') := by
  have hne : ¬ dir.toList.length < 1 := by
    intro h
    apply hdir
    apply String.toList_inj.1
    have h0 : dir.toList.length = 0 := by omega
    rw [List.length_eq_zero_iff.1 h0]
    rfl
  have hp : ∀ file, ∃ p, Init.pathOf dir file = .ok p ∧ p ≠ "" := by
    intro file
    have hx : ∀ t : String, dir ++ t ≠ "" := by
      intro t h
      apply hne
      have := congrArg (fun s : String => s.toList.length) h
      simp at this
      simp [this.1]
    unfold Init.pathOf
    rw [if_neg hne]
    split
    · exact ⟨_, rfl, hx _⟩
    · refine ⟨_, rfl, ?_⟩
      rw [String.append_assoc]
      exact hx _
  have hj : ∀ file, osJoin dir file ≠ "" := by
    have hx : ∀ t : String, dir ++ t ≠ "" := by
      intro t h
      apply hne
      have := congrArg (fun s : String => s.toList.length) h
      simp at this
      simp [this.1]
    intro file
    unfold osJoin
    rw [if_neg (by intro h; rw [h] at hne; simp at hne)]
    split
    · exact hx _
    · rw [String.append_assoc]; exact hx _
  obtain ⟨pb, hpb, hpb0⟩ := hp "BindingEnergies.dat"
  obtain ⟨px, hpx, hpx0⟩ := hp "XCOM_CrossSections.dat"
  have hcross : (osJoin dir "XCOM_CrossSections.dat").toList.length > 0 := by
    apply List.length_pos_iff.2
    intro h0
    exact hj "XCOM_CrossSections.dat" (String.toList_inj.1 (by rw [h0]; rfl))
  have hc3 : Init.construct3 on key strtod fs dir (osJoin dir "BindingEnergies.dat") (osJoin dir "XCOM_CrossSections.dat")
      = (Init.setUp on key strtod fs dir pb).bind (fun d => Init.withCrossSections strtod fs px d) := by
    unfold Init.construct3
    rw [setUp_same on key strtod fs dir _ pb (hj _) hpb0 (hfs _ _ hpb)]
    simp only [if_pos hcross, Init.withCrossSections, hfs _ _ hpx]
    rfl
  have hc2 : Init.construct2 on key strtod fs dir true =
      ((Init.setUp on key strtod fs dir pb).bind (fun d => Init.withCrossSections strtod fs px d)).bind (fun d =>
        (Init.loadFiles strtod fs dir Init.pymcaFiles { elements := d.lib.elements, files := d.files }).bind (fun s =>
          .ok { d with lib := { d.lib with elements := s.elements }, files := s.files })) := by
    show (Init.pathOf dir "BindingEnergies.dat").bind _ = _
    rw [hpb]
    show (Init.pathOf dir "XCOM_CrossSections.dat").bind _ = _
    rw [hpx]
    show (Init.setUp on key strtod fs dir pb).bind _ = _
    cases Init.setUp on key strtod fs dir pb <;> rfl
  unfold initializeAsPyMca
  rw [hc2, hc3]
  cases hd : (Init.setUp on key strtod fs dir pb).bind (fun d => Init.withCrossSections strtod fs px d) with
  | throw e =>
    exact ⟨⟨fun h => (by cases h), fun ⟨d, h⟩ => (by cases h)⟩, fun d h => (by cases h), fun d h => (by cases h)⟩
  | ub e =>
    exact ⟨⟨fun h => (by cases h), fun ⟨d, h⟩ => (by cases h)⟩, fun d h => (by cases h), fun d h => (by cases h)⟩
  | diverge =>
    exact ⟨⟨fun h => (by cases h), fun ⟨d, h⟩ => (by cases h)⟩, fun d h => (by cases h), fun d h => (by cases h)⟩
  | ok d =>
    obtain ⟨l1, l2⟩ := loads_same strtod fs dir hdir hfs Init.pymcaFiles d
      { elements := d.lib.elements, files := d.files } rfl
    simp only [Outcome.bind]
    refine ⟨⟨fun h => ?_, fun ⟨d', h⟩ => ?_⟩, fun d' h => ?_, fun d' h => ⟨_, rfl⟩⟩
    · obtain ⟨s', hs'⟩ := l2 h
      rw [hs']
      exact ⟨_, rfl⟩
    · cases hs' : Init.loadFiles strtod fs dir Init.pymcaFiles { elements := d.lib.elements, files := d.files } with
      | ok s' => exact (l1 s' hs').1
      | throw _ => rw [hs'] at h; cases h
      | ub _ => rw [hs'] at h; cases h
      | diverge => rw [hs'] at h; cases h
    · obtain ⟨s', hs', h⟩ : ∃ s', Init.loadFiles strtod fs dir Init.pymcaFiles
            { elements := d.lib.elements, files := d.files } = .ok s' ∧
          Outcome.ok { d with lib := { d.lib with elements := s'.elements }, files := s'.files } = Outcome.ok d' := by
        cases hs' : Init.loadFiles strtod fs dir Init.pymcaFiles { elements := d.lib.elements, files := d.files } with
        | ok s' => rw [hs'] at h; exact ⟨s', rfl, h⟩
        | throw _ => rw [hs'] at h; cases h
        | ub _ => rw [hs'] at h; cases h
        | diverge => rw [hs'] at h; cases h
      cases h
      obtain ⟨_, k2, k3, k4⟩ := l1 s' hs'
      exact ⟨_, rfl, k2, k3, k4⟩

end pymca

end Python
end Fisx
