import Verif.SecondarySample
import Verif.ThicknessMono

/-!
# Secondary excitation: a sample of two layers (C77, C141)

A thin layer of iron on a thick one at grazing angles: the calculation with secondary excitation returns, and the hypotheses of
the theorems of `SecondarySample.lean` are met.
-/

set_option linter.unusedSectionVars false

namespace Fisx
namespace Multilayer

open MathFn

/-! ## Bounds of the coefficients -/

theorem logLog_le {x x0 x1 y0 y1 : ℝ} (h0 : 0 < x0) (h1 : x0 < x1) (hx : x0 ≤ x) (hy1 : 0 < y1) (hy : y1 ≤ y0) :
    Element.logLog x x0 x1 y0 y1 ≤ y0 := by
  have hx1 : 0 < x1 := lt_trans h0 h1
  have hxp : 0 < x := lt_of_lt_of_le h0 hx
  have hy0 : 0 < y0 := lt_of_lt_of_le hy1 hy
  have hl : 0 < Real.log (x1 / x0) := Real.log_pos (by rw [lt_div_iff₀ h0]; linarith)
  have hB : 0 ≤ Real.log (x / x0) := Real.log_nonneg (by rw [le_div_iff₀ h0]; linarith)
  have hsum : Real.log (x1 / x) = Real.log (x1 / x0) - Real.log (x / x0) := by
    rw [Real.log_div hx1.ne' hxp.ne', Real.log_div hx1.ne' h0.ne', Real.log_div hxp.ne' h0.ne']
    ring
  unfold Element.logLog
  show Real.exp (Real.log (x1 / x) * (1 / Real.log (x1 / x0)) * Real.log y0
    + 1 / Real.log (x1 / x0) * Real.log (x / x0) * Real.log y1) ≤ y0
  have hyl : Real.log y1 ≤ Real.log y0 := Real.log_le_log hy1 hy
  have key : Real.log (x1 / x) * (1 / Real.log (x1 / x0)) * Real.log y0
      + 1 / Real.log (x1 / x0) * Real.log (x / x0) * Real.log y1 ≤ Real.log y0 := by
    rw [hsum]
    have e : (Real.log (x1 / x0) - Real.log (x / x0)) * (1 / Real.log (x1 / x0)) * Real.log y0
        + 1 / Real.log (x1 / x0) * Real.log (x / x0) * Real.log y1 =
        Real.log y0 - 1 / Real.log (x1 / x0) * Real.log (x / x0) * (Real.log y0 - Real.log y1) := by
      field_simp
      ring
    rw [e]
    have := mul_nonneg (mul_nonneg (one_div_nonneg.2 hl.le) hB) (sub_nonneg.2 hyl)
    linarith
  calc _ ≤ Real.exp (Real.log y0) := Real.exp_le_exp.2 key
    _ = y0 := Real.exp_log hy0

theorem fe_bracket {x : ℝ} {b : Int × Int × ℝ × ℝ} (hb : Element.bracket [7, 10, 20] x = .ok b) :
   b = (0, 1, 7, 10) ∨ (b = (1, 2, 10, 20) ∧ 10 ≤ x) := by
  by_cases c1 : (7 : ℝ) < x
  · by_cases c2 : (10 : ℝ) < x
    · have hi : Element.interpolationIndices [(7 : ℝ), 10, 20] x = (1, 2) := by
        unfold Element.interpolationIndices
        by_cases c3 : (20 : ℝ) < x
        · have hi : List.findIdx (fun v => decide (¬ v < x)) [(7 : ℝ), 10, 20] = 3 := by
            simp [List.findIdx, List.findIdx.go, c1, c2, c3]
          rw [hi]
          rfl
        · have hi : List.findIdx (fun v => decide (¬ v < x)) [(7 : ℝ), 10, 20] = 2 := by
            simp [List.findIdx, List.findIdx.go, c1, c2, c3]
          rw [hi]
          rfl
      unfold Element.bracket at hb
      rw [hi] at hb
      simp [vgetI, vget] at hb
      exact Or.inr ⟨hb.symm, c2.le⟩
    · have hi : Element.interpolationIndices [(7 : ℝ), 10, 20] x = (0, 1) := by
        unfold Element.interpolationIndices
        have hi : List.findIdx (fun v => decide (¬ v < x)) [(7 : ℝ), 10, 20] = 1 := by
            simp [List.findIdx, List.findIdx.go, c1, c2]
        rw [hi]
        rfl
      unfold Element.bracket at hb
      rw [hi] at hb
      simp [vgetI, vget] at hb
      exact Or.inl hb.symm
  · have hi : Element.interpolationIndices [(7 : ℝ), 10, 20] x = (0, 1) := by
        unfold Element.interpolationIndices
        have hi : List.findIdx (fun v => decide (¬ v < x)) [(7 : ℝ), 10, 20] = 0 := by
            simp [List.findIdx, List.findIdx.go, c1]
        rw [hi]
        rfl
    unfold Element.bracket at hb
    rw [hi] at hb
    simp [vgetI, vget] at hb
    exact Or.inl hb.symm

theorem fe_K_le {x v : ℝ} (hx : ¬ x < 7) (h : Element.partialValue false [7, 10, 20] [50, 40, 30] x = .ok v) : v ≤ 50 := by
  have hx : 7 ≤ x := not_lt.1 hx
  unfold Element.partialValue at h
  obtain ⟨⟨i1, i2, x0, x1⟩, hb, h⟩ := Outcome.bind_eq_ok.1 h
  have hcase := fe_bracket hb
  rcases hcase with hc | ⟨hc, h10⟩
  · cases hc
    simp [vgetI, vget] at h
    rw [if_neg (by norm_num)] at h
    simp at h
    rw [← h]
    exact logLog_le (by norm_num) (by norm_num) hx (by norm_num) (by norm_num)
  · cases hc
    simp [vgetI, vget] at h
    rw [if_neg (by norm_num)] at h
    simp at h
    rw [← h]
    exact le_trans (logLog_le (by norm_num) (by norm_num) h10 (by norm_num) (by norm_num)) (by norm_num)

theorem fe_other_le {x v : ℝ} (h : Element.partialValue true [1, 20] [1, 1] x = .ok v) : v ≤ 50 := by
  unfold Element.partialValue at h
  obtain ⟨⟨i1, i2, x0, x1⟩, hb, h⟩ := Outcome.bind_eq_ok.1 h
  simp only [if_true] at h
  split_ifs at h
  · rw [fe_vgetI (x := 1) (by simp) h]
    norm_num
  · obtain ⟨y0, h0, h⟩ := Outcome.bind_eq_ok.1 h
    obtain ⟨y1, h1, h⟩ := Outcome.bind_eq_ok.1 h
    rw [fe_vgetI (x := 1) (by simp) h0, fe_vgetI (x := 1) (by simp) h1] at h
    simp only [Outcome.pure_eq, Outcome.ok.injEq] at h
    rw [← h]
    unfold Element.logLogGuarded
    rw [if_pos (by norm_num)]
    unfold Element.logLog
    show Real.exp (_ * Real.log 1 + _ * Real.log 1) ≤ 50
    simp

theorem fe_partials_le {x : ℝ} : ∀ (shells : List Str) (acc out : SMap Str ℝ), (∀ p ∈ acc, p.2 ≤ 50) →
    Element.partialsLoop feElement x shells acc = .ok out → ∀ p ∈ out, p.2 ≤ 50
  | [], acc, out, ha, h => by
    simp only [Element.partialsLoop, Outcome.ok.injEq] at h
    exact h ▸ ha
  | s :: rest, acc, out, ha, h => by
    have hins : ∀ v : ℝ, v ≤ 50 → ∀ p ∈ acc.insert s v, p.2 ≤ 50 := by
      intro v hv p hp
      rcases SMap.mem_insert hp with rfl | hp
      · exact hv
      · exact ha p hp
    unfold Element.partialsLoop at h
    split at h
    · split at h
      · cases h
      · rename_i b hb
        split at h
        · exact fe_partials_le rest _ out (hins 0 (by norm_num)) h
        · rename_i hnb
          obtain ⟨v, hv, h⟩ := Outcome.bind_eq_ok.1 h
          refine fe_partials_le rest _ out (hins v ?_) h
          have hmem := SMap.mem_of_find? hb
          simp only [feElement, feBinding, List.mem_cons, Prod.mk.injEq, List.not_mem_nil, or_false] at hmem
          push Not at hnb
          have hK : s = "K".toList ∧ b = 7 := by
            rcases hmem with h | h | h | h | h | h | h | h | h
            · exact h
            all_goals exact absurd h.2 hnb.1
          obtain ⟨rfl, rfl⟩ := hK
          exact fe_K_le (not_lt.2 hnb.2) hv
    · rename_i hs
      have hs : s = Element.allOther := not_not.1 hs
      subst hs
      obtain ⟨v, hv, h⟩ := Outcome.bind_eq_ok.1 h
      exact fe_partials_le rest _ out (hins v (fe_other_le hv)) h

theorem fe_process_null {b : Int × Int × ℝ × ℝ} {x v : ℝ} (h : Element.processValue b x [0, 0] = .ok v) : v = 0 := by
  obtain ⟨i1, i2, x0, x1⟩ := b
  unfold Element.processValue at h
  dsimp only at h
  split_ifs at h
  · exact fe_vgetI (x := 0) (by simp) h
  · obtain ⟨y0, h0, h⟩ := Outcome.bind_eq_ok.mp h
    obtain ⟨y1, h1, h⟩ := Outcome.bind_eq_ok.mp h
    rw [fe_vgetI (x := 0) (by simp) h0, fe_vgetI (x := 0) (by simp) h1] at h
    simp only [Outcome.pure_eq, Outcome.ok.injEq] at h
    rw [← h]
    unfold Element.logLogGuarded
    rw [if_neg (by norm_num), if_neg (by norm_num)]

/-- The coefficients of the example at any energy. -/
theorem fe_total_le {x : ℝ} {m : Mu ℝ} (h : Element.getMu feElement x = .ok m) : m.pair = 0 ∧ m.photoelectric ≤ 500 := by
  have hc : Element.computeMu feElement x = .ok m := h
  unfold Element.computeMu at hc
  obtain ⟨parts, h1, hc⟩ := Outcome.bind_eq_ok.mp hc
  obtain ⟨b, h2, hc⟩ := Outcome.bind_eq_ok.mp hc
  obtain ⟨coh, h3, hc⟩ := Outcome.bind_eq_ok.mp hc
  obtain ⟨com, h4, hc⟩ := Outcome.bind_eq_ok.mp hc
  obtain ⟨pai, h5, hc⟩ := Outcome.bind_eq_ok.mp hc
  simp only [Outcome.pure_eq, Outcome.ok.injEq] at hc
  subst hc
  refine ⟨fe_process_null h5, ?_⟩
  have h1' : Element.partialsLoop feElement x Element.photoShells [] = .ok parts := h1
  have hle := fe_partials_le _ _ _ (by simp) h1'
  have ha : ∀ k, Element.at0 parts k ≤ 50 := by
    intro k
    unfold Element.at0
    cases hf : parts.find? k with
    | none => norm_num
    | some v => exact hle _ (SMap.mem_of_find? hf)
  have a1 := ha "K".toList
  have a2 := ha "L1".toList
  have a3 := ha "L2".toList
  have a4 := ha "L3".toList
  have a5 := ha "M1".toList
  have a6 := ha "M2".toList
  have a7 := ha "M3".toList
  have a8 := ha "M4".toList
  have a9 := ha "M5".toList
  have a10 := ha Element.allOther
  show Element.at0 parts "K".toList + Element.at0 parts "L1".toList + Element.at0 parts "L2".toList
    + Element.at0 parts "L3".toList + (Element.at0 parts "M1".toList + Element.at0 parts "M2".toList
    + Element.at0 parts "M3".toList + Element.at0 parts "M4".toList + Element.at0 parts "M5".toList
    + Element.at0 parts Element.allOther) ≤ 500
  linarith

/-- The coefficient of a layer of iron at any energy. -/
theorem fe_mix {fuel : Nat} {c : Config ℝ Unit} {l : Layer ℝ} {e : ℝ} {m : Mix ℝ}
    (h : layerMu feParser fuel feLibrary c l e [("Fe", 1)] = .ok m) : 2 ≤ m.total ∧ m.total ≤ 502 := by
  unfold layerMu at h
  rw [if_pos (by simp)] at h
  unfold Library.mixMu Library.amounts at h
  rw [if_pos rfl, Outcome.ok_bind] at h
  have hd : feLibrary.dict.find? "Fe" = some 0 := rfl
  have hv : vget feLibrary.elements 0 = .ok ⟨"Fe", 56, feElement⟩ := rfl
  unfold Library.mixSum at h
  rw [hd] at h
  dsimp only at h
  rw [hv, Outcome.ok_bind] at h
  obtain ⟨s, h1, h⟩ := Outcome.bind_eq_ok.mp h
  obtain ⟨q, h2, h1⟩ := Outcome.bind_eq_ok.mp h1
  obtain ⟨t1, t2, t3, t4⟩ := fe_total h2
  obtain ⟨u1, u2⟩ := fe_total_le h2
  simp only [Library.mixSum, Outcome.ok.injEq] at h1
  simp only [Outcome.pure_eq, Outcome.ok.injEq] at h
  rw [← h, ← h1]
  dsimp only
  rw [t1, t2, u1]
  simp only [zero_add, div_one, mul_one]
  constructor <;> linarith

/-! ## The sample -/

/-- The angle whose sine is 1/300, in degrees. -/
noncomputable def grazing : ℝ := Real.arcsin (1 / 300) * (180 / Real.pi)

theorem grazing_sin : Real.sin (grazing * (Real.pi / 180)) = 1 / 300 := by
  unfold grazing
  have : Real.arcsin (1 / 300) * (180 / Real.pi) * (Real.pi / 180) = Real.arcsin (1 / 300) := by
    have := Real.pi_pos
    field_simp
  rw [this, Real.sin_arcsin (by norm_num) (by norm_num)]

theorem grazing_range : 0 < grazing ∧ grazing < 180 := by
  have hp := Real.pi_pos
  have h0 : 0 < Real.arcsin (1 / 300) := Real.arcsin_pos.2 (by norm_num)
  have h1 : Real.arcsin (1 / 300) ≤ Real.pi / 2 := Real.arcsin_le_pi_div_two _
  unfold grazing
  constructor
  · positivity
  · rw [mul_div_assoc', div_lt_iff₀ hp]
    nlinarith

/-- A thin layer of iron on a thick one, at grazing angles. -/
noncomputable def feFilm : Config ℝ Unit :=
  { feConfig with alphaIn := grazing, alphaOut := grazing,
                  sample := [Layer.new "Fe" 1 (1 / 10 ^ 8) 1, Layer.new "Fe" 8 1 1] }

theorem feFilm_layers {l : Layer ℝ} (hl : l ∈ feFilm.sample) : l.hasMaterial = false ∧ l.materialName = "Fe" ∧
    l.funnyFactor = 1 ∧ 0 < l.density * l.thickness := by
  simp only [feFilm, List.mem_cons, List.not_mem_nil, or_false] at hl
  rcases hl with rfl | rfl
  · exact ⟨rfl, rfl, rfl, by norm_num [Layer.new]⟩
  · exact ⟨rfl, rfl, rfl, by norm_num [Layer.new]⟩

theorem feFilm_composition (fuel : Nat) {l : Layer ℝ} (hl : l ∈ feFilm.sample) :
    layerComposition feParser (fuel + 1) feLibrary feFilm l = .ok [("Fe", 1)] :=
  feComposition' fuel feFilm rfl l (feFilm_layers hl).1 (feFilm_layers hl).2.1

theorem feFilm_ready (fuel : Nat) : Ready false feParser (fuel + 1) feLibrary feFilm true where
  sample := fun l hl => by rw [feFilm_composition fuel hl]; trivial
  sample_nonempty := fun l hl h => by rw [feFilm_composition fuel hl] at h; simp at h
  outer := by simp [feFilm, feConfig, Config.new]
  thick := by
    intro l hl
    have hl : l ∈ feFilm.sample := by simpa [feFilm, feConfig, Config.new] using hl
    exact Or.inr (feFilm_layers hl).2.2.2
  angle := Or.inr grazing_range
  detectorMu := by
    intro h
    simp [feFilm, feConfig, Config.new, Config.defaultDetector, Detector.new, Layer.new] at h
  detector := by
    intro h
    simp [feFilm, feConfig, Config.new, Config.defaultDetector, Detector.new, Layer.new] at h
  reference := fun _ => ⟨0, rfl, le_refl _, by simp [feFilm]⟩

theorem feFilm_sensible (fuel : Nat) : Sensible feParser (fuel + 1) feLibrary feFilm where
  data := (feSensible fuel).data
  fractions := (feSensible fuel).fractions
  layers := by
    intro l hl
    have hl : l ∈ feFilm.sample := by simpa [feFilm, feConfig, Config.new] using hl
    refine ⟨by rw [(feFilm_layers hl).2.2.1]; norm_num, ?_⟩
    intro m hm
    rw [feFilm_composition fuel hl] at hm
    cases hm
    simp
  detector := (feSensible fuel).detector
  tables := (feSensible fuel).tables

theorem feFilm_coefficient (fuel : Nat) {i : Nat} {l : Layer ℝ} (hl : feFilm.sample[i]? = some l) {v : ℝ}
    (h : Coefficient feParser (fuel + 1) feLibrary feFilm i l v) : 2 ≤ v ∧ v ≤ 502 := by
  obtain ⟨e, m, h1, rfl⟩ := h
  rw [sampleComposition_eq hl (feFilm_composition fuel (List.mem_of_getElem? hl))] at h1
  exact fe_mix h1

theorem feFilm_mu (fuel : Nat) {i : Nat} (hi : i < 2) (e : ℝ) :
    2 ≤ sampleMu feParser (fuel + 1) feLibrary feFilm i e ∧ sampleMu feParser (fuel + 1) feLibrary feFilm i e ≤ 502 := by
  obtain ⟨l, hl⟩ : ∃ l, feFilm.sample[i]? = some l :=
    ⟨_, List.getElem?_eq_getElem (show i < feFilm.sample.length from hi)⟩
  have hg := layerMu_good (pf := feParser) (fuel := fuel + 1) (L := feLibrary) (c := feFilm) feResponds l [("Fe", 1)]
    (by intro q hq; simp only [List.mem_singleton] at hq; subst hq; exact feKnown) (by simp) e
  obtain ⟨m, hm⟩ := Outcome.good_false_iff.1 hg
  unfold sampleMu
  rw [hl]
  dsimp only
  rw [sampleComposition_eq hl (feFilm_composition fuel (List.mem_of_getElem? hl)), hm]
  exact fe_mix hm

/-- `C77_thick_or_thin_layers_return`, `C141_sample_not_negative_partial` and `C141_sample_partial`: the calculation returns
with the line in both layers, and the hypotheses are met. -/
theorem feFilm_secondary (fuel : Nat) (srt : List (String × ℝ) → List (String × ℝ)) (hs : Library.SortsByEnergy srt)
    (limit : ℝ) (sec : Int) : ∃ r, fluorescence feParser (fuel + 1) feLibrary srt feFilm ⟨sec, true, limit⟩ true Beam.new
      [.ok ⟨"Fe", "K", -1⟩] = .ok r ∧ ∀ i, i < 2 → ∃ l, leaf? r "Fe K" i "KL3".toList = some l ∧
      -secondaryWith feParser (fuel + 1) feLibrary srt feFilm (geometrySlack feParser (fuel + 1) feLibrary feFilm)
        ⟨sec, true, limit⟩ "Fe K" i "KL3".toList Beam.new [⟨"Fe", "K", -1⟩] ≤ l.secondary ∧
      |l.secondary - secondaryWith feParser (fuel + 1) feLibrary srt feFilm (enhancement feParser (fuel + 1) feLibrary feFilm)
        ⟨sec, true, limit⟩ "Fe K" i "KL3".toList Beam.new [⟨"Fe", "K", -1⟩]| ≤
        secondaryWith feParser (fuel + 1) feLibrary srt feFilm (geometryError feParser (fuel + 1) feLibrary feFilm)
        ⟨sec, true, limit⟩ "Fe K" i "KL3".toList Beam.new [⟨"Fe", "K", -1⟩] := by
  have e1 : sinIn feFilm = 1 / 300 := grazing_sin
  have e2 : sinOut feFilm = 1 / 300 := grazing_sin
  have h1 : 0 < sinIn feFilm := by rw [e1]; norm_num
  have h2 : 0 < sinOut feFilm := by rw [e2]; norm_num
  obtain ⟨r, hr⟩ := C77_thick_or_thin_layers_return (feSound _ _) feResponds (feFilm_ready fuel) hs ⟨sec, true, limit⟩ Beam.new
    [⟨"Fe", "K", -1⟩] (by simp [feKnown]) h1 h2 (by
      intro i l hl
      have hi : i < 2 := (List.getElem?_eq_some_iff.1 hl).1
      interval_cases i
      · right
        have hl' : l = Layer.new "Fe" 1 (1 / 10 ^ 8) 1 := by simpa [feFilm] using hl.symm
        subst hl'
        refine ⟨502, fun v hv => ?_, ?_, fun _ v w hv hw => ?_⟩
        · have := feFilm_coefficient fuel hl hv
          exact ⟨by linarith, this.2⟩
        · rw [e1, e2]
          norm_num [Layer.new]
        · have b1 := feFilm_coefficient fuel hl hv
          have b2 := feFilm_coefficient fuel hl hw
          rw [e2]
          intro hh
          rw [div_eq_iff (by norm_num)] at hh
          linarith
      · left
        have hl' : l = Layer.new "Fe" 8 1 1 := by simpa [feFilm] using hl.symm
        subst hl'
        refine ⟨2, by norm_num, fun v hv => (feFilm_coefficient fuel hl hv).1, ?_, fun hh => ?_⟩
        · rw [e1, e2]
          norm_num [Layer.new]
        · simp [feFilm] at hh)
  refine ⟨r, hr, fun i hi => ?_⟩
  have hbeam : ∀ ray ∈ usedBeam feFilm Beam.new, ray = ((10 : ℝ), (1 : ℝ)) := by
    simp [usedBeam, feFilm, feConfig, Beam.new]
  have hleaf : (leaf? r "Fe K" i "KL3".toList).isSome := by
    rw [C72_lines (hL := feSound _ _) (reqs := [⟨"Fe", "K", -1⟩]) (b := Beam.new) (r := r) (h := hr) (ht := by decide)]
    obtain ⟨fs, f, h1, h2, h3⟩ := fe_factors 1 one_pos
    refine ⟨(10, 1), by simp [usedBeam, feFilm, feConfig, Beam.new], ⟨"Fe", "K", -1⟩, by simp, f, ?_, h3, ?_, hi, ?_⟩
    · have hb : behind feParser (fuel + 1) feLibrary feFilm (10, 1) = (10, 1) := by
        simp [behind, passing, feFilm, feConfig, Config.new, filterFactor, valueOr0]
      rw [hb]
      unfold excitedLine
      have : feLibrary.getElement "Fe" = .ok ⟨"Fe", 56, feElement⟩ := rfl
      rw [this, Outcome.ok_bind, h1]
      exact h2
    · refine ⟨rfl, Or.inl (by decide), by decide, by decide, 7, ?_, by norm_num⟩
      rfl
    · unfold elementFraction
      obtain ⟨l, hl⟩ : ∃ l, feFilm.sample[i]? = some l :=
        ⟨_, List.getElem?_eq_getElem (show i < feFilm.sample.length from hi)⟩
      rw [if_pos rfl, sampleComposition_eq hl (feFilm_composition fuel (List.mem_of_getElem? hl))]
      simp
  obtain ⟨l, hl⟩ := Option.isSome_iff_exists.1 hleaf
  have hb : ∀ ray ∈ usedBeam feFilm Beam.new, 0 ≤ ray.2 := by
    intro ray hray
    rw [hbeam ray hray]
    norm_num
  have hD : ∀ l ∈ feFilm.sample, 0 < l.density * l.thickness := fun l hl => (feFilm_layers hl).2.2.2
  have hA : Attenuated feParser (fuel + 1) feLibrary srt feFilm ⟨sec, true, limit⟩ "KL3".toList Beam.new [⟨"Fe", "K", -1⟩] i := by
    intro j e s muT hO
    obtain ⟨hi, hj, ray, -, rfl, -, req, -, f, -, rfl⟩ := hO
    have hi : i < 2 := hi
    have hj : j < 2 := hj
    refine ⟨?_, ?_, ?_, ?_, ?_⟩
    · linarith [(feFilm_mu fuel hi f.energy).1]
    · linarith [(feFilm_mu fuel hj ray.1).1]
    · linarith [(feFilm_mu fuel hi s).1]
    · linarith [(feFilm_mu fuel hj s).1]
    · intro k
      by_cases hk : k < 2
      · linarith [(feFilm_mu fuel hk s).1]
      · unfold sampleMu
        rw [List.getElem?_eq_none (show feFilm.sample.length ≤ k from not_lt.1 hk)]
  have hDi : Distinct feParser (fuel + 1) feLibrary srt feFilm ⟨sec, true, limit⟩ "KL3".toList Beam.new [⟨"Fe", "K", -1⟩] i := by
    intro j e s muT hO
    obtain ⟨hi, hj, ray, -, rfl, -, req, -, f, -, rfl⟩ := hO
    have hi : i < 2 := hi
    have hj : j < 2 := hj
    rw [e1, e2]
    constructor
    · intro hh
      rw [div_eq_iff (by norm_num)] at hh
      linarith [(feFilm_mu fuel hj ray.1).1, (feFilm_mu fuel hj s).2]
    · intro hh
      rw [div_eq_iff (by norm_num)] at hh
      linarith [(feFilm_mu fuel hi f.energy).1, (feFilm_mu fuel hi s).2]
  exact ⟨l, hl, C141_sample_not_negative_partial feParser (fuel + 1) feLibrary srt feFilm _ true (feSound _ _)
      (feFilm_sensible fuel) h1 h2 hD [⟨"Fe", "K", -1⟩] (by decide) Beam.new hb r hr _ i _ (by decide) hA l hl,
    C141_sample_partial feParser (fuel + 1) feLibrary srt feFilm _ true (feSound _ _)
      (feFilm_sensible fuel) h1 h2 hD [⟨"Fe", "K", -1⟩] (by decide) Beam.new hb r hr _ i _ (by decide) hA hDi l hl⟩

end Multilayer
end Fisx
