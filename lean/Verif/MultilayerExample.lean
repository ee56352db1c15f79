import Verif.MultilayerTotal

/-!
# A library and a sample for which the calculation returns a line

The hypotheses of the theorems about `getMultilayerFluorescence` (C45-C48, C54, C66, C71-C73, C77) hold for a sample of one
iron layer, and the result contains the line that was asked for.
-/

set_option linter.unusedSectionVars false

namespace Fisx
namespace Multilayer

open Outcome (Good)
open Xrf (Request)

/-! ## Complete elements respond -/

/-- A subshell with a positive binding energy has its constants. -/
structure ShellsBound (e : Element ℝ) : Prop where
  sorted : e.binding.Sorted
  shells : ∀ s b, (s, b) ∈ e.binding → 0 < b → s.take 1 = ['K'] ∨ s.take 1 = ['L'] ∨ s.take 1 = ['M'] →
    ∃ sh, e.shells.find? s = some sh

theorem familiesOf_good {e : LibElement ℝ} (h : ShellsBound e.data) (x : ℝ) : ∀ shells : List Str,
    (∀ s ∈ shells, s ∈ e.data.getExcitedShells x) → Good false (Library.familiesOf e shells)
  | [], _ => trivial
  | s :: rest, hs => by
    unfold Library.familiesOf
    have ih := familiesOf_good h x rest (fun s hs' => hs s (by simp [hs']))
    refine Good.ite (fun hk => ?_) fun _ => ih
    obtain ⟨⟨s', b⟩, hb, rfl⟩ := List.mem_map.1 (hs s (by simp))
    obtain ⟨hm, hp⟩ := List.mem_filter.1 hb
    simp only [decide_eq_true_eq] at hp
    obtain ⟨sh, hsh⟩ := h.shells _ _ hm hp.1 hk
    have hf := SMap.find?_of_mem h.sorted hm
    dsimp only at hsh hf ⊢
    rw [hsh]
    refine ih.bind fun r _ => ?_
    refine Good.ite (fun _ => ?_) fun _ => trivial
    rw [hf]
    trivial

/-- A library of complete elements answers the queries of the calculation. -/
theorem responds_of_complete {pf : String → Outcome (SMap String ℝ)} {L : Library ℝ} (hpf : Library.ParserOK pf)
    (hi : Library.Inv L) (hb : ∀ e ∈ L.elements, ' ' ∉ e.name.toList)
    (hc : ∀ e ∈ L.elements, Element.Complete e.data ∧ ShellsBound e.data) : Responds false pf L where
  parser := hpf
  inv := hi
  blank := hb
  mu := fun e he x => Outcome.good_false_iff.mpr (Element.C78_complete_element_answers (hc e he).1 x 1).1
  factors := fun e he x w => Outcome.good_false_iff.mpr (Element.C78_complete_element_answers (hc e he).1 x w).2.2.1
  families := fun e he x => familiesOf_good (hc e he).2 x _ (fun _ h => h)

/-- C77: with complete data for every element of the library, a configuration all whose parts can be asked alone, and
without secondary excitation, the calculation returns. -/
theorem C77_complete_library_returns {R : Type} {pf : String → Outcome (SMap String ℝ)} {fuel : Nat} {L : Library ℝ}
    {c : Config ℝ R} {g : Bool} {srt : List (String × ℝ) → List (String × ℝ)} (hpf : Library.ParserOK pf)
    (hi : Library.Inv L) (hb : ∀ e ∈ L.elements, ' ' ∉ e.name.toList)
    (hc : ∀ e ∈ L.elements, Element.Complete e.data ∧ ShellsBound e.data) (hr : Ready false pf fuel L c g)
    (hs : Library.SortsByEnergy srt) (o : Options ℝ) (ho : o.secondary ≤ 0) (beam : Beam ℝ) (reqs : List Request)
    (hq : ∀ q ∈ reqs, Known L q.element ∧ q.family ≠ "") :
    ∃ r, fluorescence pf fuel L srt c o g beam (reqs.map .ok) = .ok r :=
  C77_returns (responds_of_complete hpf hi hb hc) hr hs o ho beam reqs hq

/-! ## The example -/

/-- A K shell with one line and half of the vacancies filled radiatively. -/
noncomputable def feShell : Shell ℝ :=
  { name := "K".toList, mainIndex := 1, subIndex := 0, constants := [("omega".toList, 1 / 2)], radiative := [],
    nonradiative := [], auger := [], ck := [], fluorescence := [("KL3".toList, 1)] }

noncomputable def feBinding : SMap Str ℝ :=
  [("K".toList, 7), ("L1".toList, 0), ("L2".toList, 0), ("L3".toList, 0), ("M1".toList, 0), ("M2".toList, 0),
   ("M3".toList, 0), ("M4".toList, 0), ("M5".toList, 0)]

/-- An element with photoelectric coefficients for the K shell. -/
noncomputable def feElement : Element ℝ :=
  { atomicNumber := 26, binding := feBinding, muEnergy := [1, 20],
    mu := some ⟨[1, 1], [1, 1], [0, 0], [5, 5], [7, 7]⟩,
    partialE := [("K".toList, [7, 10, 20]), ("all other".toList, [1, 20])],
    partialV := [("K".toList, [50, 40, 30]), ("all other".toList, [1, 1])], cacheOn := false, muCache := [],
    excCache := [], shells := [("K".toList, feShell)], cascadeOn := false, cascadeCache := [] }

noncomputable def feLibrary : Library ℝ :=
  { dict := [("Fe", 0)], elements := [⟨"Fe", 56, feElement⟩], materials := [], escapeOn := false, escape := [],
    escapeKey := ⟨[], 0, 0, 0, 45, 0⟩ }

/-- A parser knowing one formula. -/
noncomputable def feParser (s : String) : Outcome (SMap String ℝ) := if s = "Fe" then .ok [("Fe", 1)] else .ok []

/-- One layer of iron. -/
noncomputable def feConfig : Config ℝ Unit :=
  { Config.new with beam := { normalized := true, rays := [⟨10, 1, 1, 0⟩] }, sample := [Layer.new "Fe" 8 1 1],
                    referenceLayer := some 0 }

theorem feShell_of {k : Str} {s : Shell ℝ} (h : feElement.shells.find? k = some s) : k = "K".toList ∧ s = feShell := by
  have := SMap.mem_of_find? h
  simp only [feElement, List.mem_singleton, Prod.mk.injEq] at this
  exact this

theorem feLine {t : Str} {r : ℝ} (h : (t, r) ∈ feShell.fluorescence) : t = "KL3".toList ∧ r = 1 := by
  simpa only [feShell, List.mem_singleton, Prod.mk.injEq] using h

theorem feComplete : Element.Complete feElement where
  energies := by simp [feElement]
  table := ⟨_, rfl, rfl, rfl, rfl⟩
  partials := by
    refine Or.inr ⟨?_, ⟨[1, 20], [1, 1], rfl, rfl, rfl, by simp⟩⟩
    intro s hs
    simp only [Element.keys, List.mem_cons, List.not_mem_nil, or_false] at hs
    rcases hs with rfl | rfl | rfl | rfl | rfl | rfl | rfl | rfl | rfl
    · refine ⟨7, rfl, fun _ => ⟨[7, 10, 20], [50, 40, 30], rfl, rfl, rfl, by simp, ?_⟩⟩
      simp
    all_goals exact ⟨0, rfl, fun h => absurd rfl h⟩
  shells := by
    intro k hk
    have : k = "K".toList := by simpa [feElement, Element.keys] using hk
    subst this
    exact ⟨feShell, rfl⟩
  yields := fun k s h => by rw [(feShell_of h).2]; exact ⟨1 / 2, rfl⟩
  transfers := by
    intro k s h j _ hj
    rw [(feShell_of h).2]
    unfold Shell.getDirectVacancyTransferRatios
    rw [if_neg (by simpa using hj)]
    have h1 : ¬ SMap.total feShell.constants > 10001 / 10000 := by
      simp only [feShell, SMap.total_cons, SMap.total_nil]
      norm_num
    have h2 : Shell.suffixSum feShell.auger j = .ok 0 := rfl
    rw [h2, Outcome.ok_bind]
    have h3 : Shell.ckRaw feShell.name feShell.ck j = .ok [] := rfl
    rw [h3, Outcome.ok_bind, if_neg h1]
    exact ⟨_, rfl⟩
  lines := by
    intro k s t r h1 h2
    obtain ⟨rfl, rfl⟩ := feShell_of h1
    obtain ⟨rfl, rfl⟩ := feLine h2
    refine ⟨by decide, ⟨7, rfl, by norm_num⟩, ?_⟩
    show 0 ≤ Element.at0 feBinding "L3".toList
    have : feBinding.find? "L3".toList = some 0 := rfl
    unfold Element.at0
    rw [this]
    simp
  cascade := by simp [feElement]

theorem feBound : ShellsBound feElement where
  sorted := by
    show SMap.Sorted feBinding
    unfold feBinding SMap.Sorted
    decide +kernel
  shells := by
    intro s b h hb _
    simp only [feElement, feBinding, List.mem_cons, Prod.mk.injEq, List.not_mem_nil, or_false] at h
    rcases h with ⟨rfl, rfl⟩ | ⟨-, rfl⟩ | ⟨-, rfl⟩ | ⟨-, rfl⟩ | ⟨-, rfl⟩ | ⟨-, rfl⟩ | ⟨-, rfl⟩ | ⟨-, rfl⟩ | ⟨-, rfl⟩
    · exact ⟨feShell, rfl⟩
    all_goals exact absurd hb (lt_irrefl _)

/-! The photoelectric coefficients at 10 keV. -/

theorem fe_zero (s : Str) (x : ℝ) (rest : List Str) (acc : SMap Str ℝ) (hs : s ≠ Element.allOther)
    (h : feElement.binding.find? s = some 0) :
    Element.partialsLoop feElement x (s :: rest) acc = Element.partialsLoop feElement x rest (acc.insert s 0) := by
  rw [Element.partialsLoop, if_pos hs, h]
  dsimp only
  rw [if_pos (Or.inl rfl)]

theorem fe_K : Element.partialValue false [7, 10, 20] [50, 40, 30] (10 : ℝ) = .ok (Element.logLog 10 7 10 50 40) := by
  have hb : Element.bracket [7, 10, 20] (10 : ℝ) = .ok (0, 1, 7, 10) := by
    have hi : Element.interpolationIndices [7, 10, 20] (10 : ℝ) = (0, 1) := by
      have : [7, 10, 20].findIdx (fun v : ℝ => decide (¬ v < 10)) = 1 := by
        simp [List.findIdx_cons]
        norm_num
      unfold Element.interpolationIndices
      rw [this]
      rfl
    unfold Element.bracket
    rw [hi]
    show (if (10 : ℝ) = 10 ∧ (1 : Int) + 1 < 3 then (if (20 : ℝ) = 10 then _ else _) else _) = _
    rw [if_pos (by norm_num), if_neg (by norm_num)]
    rfl
  unfold Element.partialValue
  rw [hb, Outcome.ok_bind]
  dsimp only
  rw [if_neg (by norm_num)]
  simp [vgetI, vget]

theorem fe_other : ∃ y, Element.partialValue true [1, 20] [1, 1] (10 : ℝ) = .ok y ∧ 0 < y := by
  have hb : Element.bracket [1, 20] (10 : ℝ) = .ok (0, 1, 1, 20) := by
    simp [Element.bracket, Element.interpolationIndices, List.findIdx_cons, vgetI, vget, Outcome.pure_eq]
    norm_num
  refine ⟨Element.logLogGuarded 10 1 20 1 1, ?_, ?_⟩
  · unfold Element.partialValue
    rw [hb, Outcome.ok_bind]
    dsimp only
    rw [if_neg (by norm_num)]
    simp [vgetI, vget]
  · unfold Element.logLogGuarded
    rw [if_pos (by norm_num)]
    exact Real.exp_pos _

theorem fe_partials : ∃ p, Element.getPartials feElement 10 = .ok p ∧ ∃ a o, 0 < a ∧ 0 < o ∧
    p = [("K".toList, a), ("L1".toList, 0), ("L2".toList, 0), ("L3".toList, 0), ("M1".toList, 0), ("M2".toList, 0),
      ("M3".toList, 0), ("M4".toList, 0), ("M5".toList, 0), ("all other".toList, o)] := by
  obtain ⟨y, hy, hpos⟩ := fe_other
  refine ⟨_, ?_, Element.logLog 10 7 10 50 40, y, Real.exp_pos _, hpos, rfl⟩
  have hE : (feElement.partialE.find? "K".toList).getD [] = [7, 10, 20] := rfl
  have hV : (feElement.partialV.find? "K".toList).getD [] = [50, 40, 30] := rfl
  have hE' : (feElement.partialE.find? Element.allOther).getD [] = [1, 20] := rfl
  have hV' : (feElement.partialV.find? Element.allOther).getD [] = [1, 1] := rfl
  have hbK : feElement.binding.find? "K".toList = some 7 := rfl
  unfold Element.getPartials Element.photoShells Element.keys
  show Element.partialsLoop feElement 10 ["K".toList, "L1".toList, "L2".toList, "L3".toList, "M1".toList, "M2".toList,
    "M3".toList, "M4".toList, "M5".toList, Element.allOther] [] = _
  rw [Element.partialsLoop, if_pos (by decide), hbK]
  dsimp only
  rw [if_neg (by norm_num), hE, hV, fe_K, Outcome.ok_bind]
  rw [fe_zero _ _ _ _ (by decide) rfl, fe_zero _ _ _ _ (by decide) rfl, fe_zero _ _ _ _ (by decide) rfl,
    fe_zero _ _ _ _ (by decide) rfl, fe_zero _ _ _ _ (by decide) rfl, fe_zero _ _ _ _ (by decide) rfl,
    fe_zero _ _ _ _ (by decide) rfl, fe_zero _ _ _ _ (by decide) rfl]
  rw [Element.partialsLoop, if_neg (by simp), hE', hV', hy, Outcome.ok_bind]
  rfl

theorem fe_mu : ∃ m, Element.getMu feElement 10 = .ok m ∧ 0 < m.photoelectric ∧ 0 < Element.at0 m.partials "K".toList := by
  obtain ⟨m, hm⟩ := (Element.C78_complete_element_answers feComplete 10 1).1
  refine ⟨m, hm, ?_⟩
  obtain ⟨p, hp, a, o, ha, ho, rfl⟩ := fe_partials
  have h : Element.computeMu feElement 10 = .ok m := hm
  unfold Element.computeMu at h
  have h0 : Element.partialsOrZero feElement 10 = Element.getPartials feElement 10 := by
    unfold Element.partialsOrZero
    rw [if_pos (by simp [feElement])]
  rw [h0, hp, Outcome.ok_bind] at h
  obtain ⟨b, -, h⟩ := Outcome.bind_eq_ok.mp h
  obtain ⟨x1, -, h⟩ := Outcome.bind_eq_ok.mp h
  obtain ⟨x2, -, h⟩ := Outcome.bind_eq_ok.mp h
  obtain ⟨x3, -, h⟩ := Outcome.bind_eq_ok.mp h
  simp only [Outcome.pure_eq, Outcome.ok.injEq] at h
  subst h
  constructor
  · show 0 < a + 0 + 0 + 0 + (0 + 0 + 0 + 0 + 0 + o)
    linarith
  · exact ha

/-- The only line excited at 10 keV. -/
theorem fe_only_line (w : ℝ) (hw : 0 < w) : ∃ f, Element.getFactors feElement 10 w = .ok [("KL3".toList, f)] ∧
    0 < f.rate ∧ 0 < f.factor := by
  obtain ⟨m, hm, h1, h2⟩ := fe_mu
  have hv : Element.getInitialVacancies feElement 10 = .ok (SMap.ofList (Element.photoShells.map (fun s =>
      (s, if m.photoelectric > 0 then Element.at0 m.partials s / m.photoelectric else 0)))) := by
    unfold Element.getInitialVacancies
    rw [hm, Outcome.ok_bind]
    rfl
  obtain ⟨v, hvdef⟩ : ∃ v, v = Element.at0 m.partials "K".toList / m.photoelectric := ⟨_, rfl⟩
  have hvpos : 0 < v := hvdef ▸ div_pos h2 h1
  have hl : ∀ d : SMap Str ℝ, Element.at0 d "K".toList = v →
      Element.getLines feElement d true true = .ok [("KL3".toList, ⟨7 - 3 / 1000, 1 * v * (1 / 2)⟩)] := by
    intro d hd
    unfold Element.getLines
    rw [if_pos rfl, if_neg (by simp [feElement])]
    have hi : Element.initialVector feElement d = [v] := by
      unfold Element.initialVector
      show [Element.at0 d "K".toList] = [v]
      rw [hd]
    have hk : Element.keys.take feElement.shells.length = ["K".toList] := rfl
    have hg : Element.getCascade feElement d = .ok [("K".toList, v)] := by
      unfold Element.getCascade
      rw [hi, hk]
      simp only [Element.cascadeLoop, Element.propagate, Element.addTransfers]
      rw [if_pos hvpos]
      rfl
    rw [hg, Outcome.ok_bind]
    have hs : feElement.shells.find? "K".toList = some feShell := rfl
    rw [Element.linesLoop, hs]
    dsimp only
    have ho : Element.outerEnergy feElement ['L', '3'] = .ok (3 / 1000) := by
      unfold Element.outerEnergy
      have : Element.at0 feElement.binding ['L', '3'] = 0 := rfl
      rw [this]
      simp
    have hi : Element.innerEnergy feElement "K".toList = .ok 7 := by
      unfold Element.innerEnergy
      have : feElement.binding.find? "K".toList = some 7 := rfl
      rw [this]
      dsimp only
      rw [if_neg (by norm_num)]
    have hE : Element.lineEnergy feElement "K".toList "KL3".toList = .ok (7 - 3 / 1000) := by
      unfold Element.lineEnergy
      rw [hi, Outcome.ok_bind, if_neg (by decide)]
      show (do let e1 ← Element.outerEnergy feElement ['L', '3']; pure (7 - e1)) = _
      rw [ho]
      rfl
    have hr : Element.lineRate true feShell 1 v = .ok (1 * v * (1 / 2)) := rfl
    have hf : feShell.fluorescence = [("KL3".toList, 1)] := rfl
    rw [hf, Element.linesOfShell, hr, Outcome.ok_bind, if_pos (by simpa using hvpos), hE, Outcome.ok_bind]
    rfl
  refine ⟨⟨7 - 3 / 1000, 1 * v * (1 / 2) * w * m.photoelectric, 1 * v * (1 / 2) * w⟩, ?_, ?_, ?_⟩
  · unfold Element.getFactors
    rw [if_neg (by simp [feElement])]
    unfold Element.computeFactors
    rw [hv, Outcome.ok_bind, hl _ ?_, Outcome.ok_bind, if_neg (by simp), hm, Outcome.ok_bind]
    · rfl
    · rw [hvdef]
      show (if m.photoelectric > 0 then Element.at0 m.partials "K".toList / m.photoelectric else 0) = _
      rw [if_pos h1]
  · show 0 < 1 * v * (1 / 2) * w * m.photoelectric
    positivity
  · show 0 < 1 * v * (1 / 2) * w
    positivity

/-- The line is excited at 10 keV. -/
theorem fe_factors (w : ℝ) (hw : 0 < w) : ∃ fs f, Element.getFactors feElement 10 w = .ok fs ∧
    fs.find? "KL3".toList = some f ∧ 0 < f.factor := by
  obtain ⟨f, h1, -, h2⟩ := fe_only_line w hw
  exact ⟨_, f, h1, rfl, h2⟩

theorem feSound (pf : String → Outcome (SMap String ℝ)) (fuel : Nat) : SoundLibrary pf fuel feLibrary where
  elements := by
    intro e he
    simp only [feLibrary, List.mem_singleton] at he
    subst he
    exact {
      fresh := Or.inl rfl
      cached := Element.cacheTrue_empty rfl rfl
      disjoint := fun k s k' s' t r r' h1 h2 _ _ => by rw [(feShell_of h1).1, (feShell_of h2).1]
      blank := fun k s t r h1 h2 => by
        rw [(feShell_of h1).2] at h2
        rw [(feLine h2).1]; decide
      esc := fun k s t r h1 h2 => by
        rw [(feShell_of h1).2] at h2
        rw [(feLine h2).1]; decide
      binding := fun k b h => by
        have := SMap.mem_of_find? h
        simp only [feElement, feBinding, List.mem_cons, Prod.mk.injEq, List.not_mem_nil, or_false] at this
        rcases this with ⟨-, rfl⟩ | ⟨-, rfl⟩ | ⟨-, rfl⟩ | ⟨-, rfl⟩ | ⟨-, rfl⟩ | ⟨-, rfl⟩ | ⟨-, rfl⟩ | ⟨-, rfl⟩ | ⟨-, rfl⟩ <;>
          norm_num }
  escape := Library.escapeTrue_empty pf fuel _ rfl

theorem feInv : Library.Inv feLibrary := by
  intro n i
  simp only [feLibrary, Library.getElementNames, SMap.find?_cons, SMap.find?_nil, List.map_cons, List.map_nil]
  by_cases h : "Fe" = n
  · subst h
    rcases i with _ | i <;> simp
  · rcases i with _ | i <;> simp [h]

theorem feParserOK : Library.ParserOK feParser := by
  intro s m h
  unfold feParser at h
  split_ifs at h <;> (simp only [Outcome.ok.injEq] at h; subst h)
  · exact ⟨by simp [SMap.Sorted], by simp⟩
  · exact ⟨by simp, by simp⟩

theorem feKnown : Known feLibrary "Fe" := ⟨⟨"Fe", 56, feElement⟩, rfl⟩

theorem feComposition (fuel : Nat) (l : Layer ℝ) (hl : l ∈ feConfig.sample) :
    layerComposition feParser (fuel + 1) feLibrary feConfig l = .ok [("Fe", 1)] := by
  have hl : l = Layer.new "Fe" 8 1 1 := by simpa [feConfig] using hl
  subst hl
  unfold layerComposition
  rw [if_neg (by simp [Layer.new])]
  show Library.compWith feParser feLibrary [] (fuel + 1) "Fe" = _
  unfold Library.compWith Library.formula feParser
  rw [if_pos rfl, Outcome.ok_bind]
  have hm : Library.masses feLibrary [("Fe", 1)] = some [("Fe", 1 * 56)] := by
    have h1 : feLibrary.dict.find? "Fe" = some 0 := rfl
    have h2 : feLibrary.elements[0]? = some ⟨"Fe", 56, feElement⟩ := rfl
    simp [Library.masses, h1, h2]
  rw [hm]
  simp [SMap.total]

theorem feReady (fuel : Nat) : Ready false feParser (fuel + 1) feLibrary feConfig true where
  sample := fun l hl => by rw [feComposition fuel l hl]; trivial
  sample_nonempty := fun l hl h => by rw [feComposition fuel l hl] at h; simp at h
  outer := by simp [feConfig, Config.new]
  thick := by
    intro l hl
    have hl : l = Layer.new "Fe" 8 1 1 := by simpa [feConfig, Config.new] using hl
    subst hl
    right
    simp [Layer.new]
  angle := Or.inr (by simp [feConfig, Config.new]; norm_num)
  detectorMu := by
    intro h
    simp [feConfig, Config.new, Config.defaultDetector, Detector.new, Layer.new] at h
  detector := by
    intro h
    simp [feConfig, Config.new, Config.defaultDetector, Detector.new, Layer.new] at h
  reference := fun _ => ⟨0, rfl, le_refl _, by simp [feConfig]⟩

theorem feResponds : Responds false feParser feLibrary :=
  responds_of_complete feParserOK feInv (by simp [feLibrary])
    (by
      intro e he
      simp only [feLibrary, List.mem_singleton] at he
      subst he
      exact ⟨feComplete, feBound⟩)

/-- The calculation returns for this sample, and the result has the line. -/
theorem fe_result (fuel : Nat) (srt : List (String × ℝ) → List (String × ℝ)) (hs : Library.SortsByEnergy srt)
    (limit : ℝ) : ∃ r, fluorescence feParser (fuel + 1) feLibrary srt feConfig ⟨0, true, limit⟩ true Beam.new
      [.ok ⟨"Fe", "K", 0⟩] = .ok r ∧ (leaf? r "Fe K" 0 "KL3".toList).isSome := by
  obtain ⟨r, hr⟩ := C77_returns feResponds (feReady fuel) hs ⟨0, true, limit⟩ (le_refl _) Beam.new [⟨"Fe", "K", 0⟩]
    (by simp [feKnown])
  refine ⟨r, hr, ?_⟩
  rw [C72_lines (hL := feSound _ _) (reqs := [⟨"Fe", "K", 0⟩]) (b := Beam.new) (r := r) (h := hr) (ht := by decide)]
  obtain ⟨fs, f, h1, h2, h3⟩ := fe_factors 1 one_pos
  refine ⟨(10, 1), by simp [usedBeam, feConfig, Beam.new], ⟨"Fe", "K", 0⟩, by simp, f, ?_, h3, ?_, by simp [feConfig], ?_⟩
  · have hb : behind feParser (fuel + 1) feLibrary feConfig (10, 1) = (10, 1) := by
      simp [behind, passing, feConfig, Config.new, filterFactor, valueOr0]
    rw [hb]
    unfold excitedLine
    have : feLibrary.getElement "Fe" = .ok ⟨"Fe", 56, feElement⟩ := rfl
    rw [this, Outcome.ok_bind, h1]
    exact h2
  · refine ⟨rfl, Or.inr rfl, by decide, by decide, 7, ?_, by norm_num⟩
    rfl
  · unfold elementFraction sampleComposition
    rw [if_pos rfl]
    have : feConfig.sample[0]? = some (Layer.new "Fe" 8 1 1) := rfl
    rw [this]
    dsimp only
    rw [feComposition fuel _ (by simp [feConfig])]
    simp

end Multilayer
end Fisx
