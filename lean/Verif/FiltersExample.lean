import Verif.Filters

/-!
# C162, C163 and C164: cases
-/

set_option linter.unusedSectionVars false

namespace Fisx
namespace Multilayer

open Outcome (Good)

/-- Iron behind a filter of iron, with an attenuator of iron before the detector. -/
noncomputable def feStack (filters sample attenuators : List (Layer ℝ)) : Config ℝ Unit :=
  { feConfig with sample := sample, beamFilters := filters, attenuators := attenuators }

/-- Photons of 10 keV. -/
noncomputable def feBeam : Beam ℝ := { normalized := true, rays := [⟨10, 1, 1, 0⟩] }

theorem feAmounts (fuel : Nat) : Good false (feLibrary.amounts feParser (fuel + 1) [("Fe", 1)] false) := by
  have hc : Library.comp feParser feLibrary (fuel + 1) "Fe" = .ok [("Fe", 1)] := by
    have := feComposition' fuel feConfig rfl (Layer.new "Fe" 8 1 1) rfl rfl
    unfold layerComposition at this
    rw [if_neg (by simp [Layer.new])] at this
    have h2 : Library.compWith feParser feLibrary [] (fuel + 1) "Fe" = .ok [("Fe", 1)] := this
    rw [← h2]
    unfold Library.compWith Library.comp
    rfl
  unfold Library.amounts
  rw [if_neg (by simp)]
  unfold Library.amountsLoop
  rw [if_neg (by norm_num), hc, Outcome.ok_bind]
  rw [if_neg (by simp)]
  unfold Library.amountsLoop
  rw [Outcome.ok_bind, if_neg (by norm_num)]
  trivial

/-- Any such stack is ready for the calculation. -/
theorem feStackReady (fuel : Nat) (fs ls as : List (Layer ℝ))
    (hls : ∀ l ∈ ls ++ (fs ++ as), l.hasMaterial = false ∧ l.materialName = "Fe" ∧ 0 < l.density * l.thickness) :
    Ready false feParser (fuel + 1) feLibrary (feStack fs ls as) false where
  sample := fun l hl => by
    have := hls l (List.mem_append_left _ hl)
    rw [feComposition' fuel _ rfl l this.1 this.2.1]; trivial
  sample_nonempty := fun l hl h => by
    have := hls l (List.mem_append_left _ hl)
    rw [feComposition' fuel _ rfl l this.1 this.2.1] at h; simp at h
  outer := fun l hl => by
    have := hls l (List.mem_append_right _ hl)
    unfold layerMu
    rw [if_neg (by simp), feComposition' fuel _ rfl l this.1 this.2.1, Outcome.ok_bind]
    exact mixMu_good feResponds (fun h => by cases h) (feAmounts fuel) 1
  thick := fun l hl => Or.inr (hls l hl).2.2
  angle := Or.inr (by simp [feStack, feConfig, Config.new]; norm_num)
  detectorMu := by
    intro h
    simp [feStack, feConfig, Config.new, Config.defaultDetector, Detector.new, Layer.new] at h
  detector := by
    intro h
    simp [feStack, feConfig, Config.new, Config.defaultDetector, Detector.new, Layer.new] at h
  reference := fun h => by cases h

theorem feStack_returns (fuel : Nat) {srt : List (String × ℝ) → List (String × ℝ)} (hs : Library.SortsByEnergy srt) (limit : ℝ)
    (b : Beam ℝ) (fs ls as : List (Layer ℝ))
    (hls : ∀ l ∈ ls ++ (fs ++ as), l.hasMaterial = false ∧ l.materialName = "Fe" ∧ 0 < l.density * l.thickness) :
    ∃ r, fluorescence feParser (fuel + 1) feLibrary srt (feStack fs ls as) ⟨0, true, limit⟩ false b [.ok ⟨"Fe", "K", -1⟩] = .ok r :=
  C77_returns feResponds (feStackReady fuel fs ls as hls) hs ⟨0, true, limit⟩ (le_refl _) b [⟨"Fe", "K", -1⟩] (by simp [feKnown])

/-- The line of iron in the first layer, without filters. -/
theorem feStack_line (fuel : Nat) {srt : List (String × ℝ) → List (String × ℝ)} {limit : ℝ} {ls as : List (Layer ℝ)}
    {r : Result ℝ} (h : fluorescence feParser (fuel + 1) feLibrary srt (feStack [] (Layer.new "Fe" 8 1 1 :: ls) as) ⟨0, true, limit⟩ false
      Beam.new [.ok ⟨"Fe", "K", -1⟩] = .ok r) : ∃ l, leaf? r "Fe K" 0 "KL3".toList = some l := by
  rw [← Option.isSome_iff_exists]
  rw [C72_lines (hL := feSound _ _) (reqs := [⟨"Fe", "K", -1⟩]) (b := Beam.new) (r := r) (h := h) (ht := by decide)]
  obtain ⟨fs, f, h1, h2, h3⟩ := fe_factors 1 one_pos
  refine ⟨(10, 1), by simp [usedBeam, feStack, feConfig, Beam.new], ⟨"Fe", "K", -1⟩, by simp, f, ?_, h3, ?_, by simp [feStack], ?_⟩
  · have hb : behind feParser (fuel + 1) feLibrary (feStack [] (Layer.new "Fe" 8 1 1 :: ls) as) (10, 1) = (10, 1) := by
      simp [behind, passing, feStack, feConfig, Config.new, filterFactor, valueOr0]
    rw [hb]
    unfold excitedLine
    have : feLibrary.getElement "Fe" = .ok ⟨"Fe", 56, feElement⟩ := rfl
    rw [this, Outcome.ok_bind, h1]
    exact h2
  · refine ⟨rfl, Or.inl (by decide), by decide, by decide, 7, ?_, by norm_num⟩
    rfl
  · unfold elementFraction
    rw [if_pos rfl, sampleComposition_at (x := Layer.new "Fe" 8 1 1) rfl]
    unfold compOf
    rw [feComposition' fuel _ rfl _ rfl rfl]
    simp

/-- `C162_attenuator`: both calculations return, with the line. -/
theorem fe_attenuator (fuel : Nat) (srt : List (String × ℝ) → List (String × ℝ)) (hs : Library.SortsByEnergy srt) (limit : ℝ) :
    ∃ r r' l l' v, fluorescence feParser (fuel + 1) feLibrary srt (feStack [] [Layer.new "Fe" 8 1 1] []) ⟨0, true, limit⟩ false Beam.new
        [.ok ⟨"Fe", "K", -1⟩] = .ok r ∧
      fluorescence feParser (fuel + 1) feLibrary srt (feStack [] [Layer.new "Fe" 8 1 1] [Layer.new "Fe" 8 2 1]) ⟨0, true, limit⟩ false
        Beam.new [.ok ⟨"Fe", "K", -1⟩] = .ok r' ∧
      leaf? r "Fe K" 0 "KL3".toList = some l ∧ leaf? r' "Fe K" 0 "KL3".toList = some l' ∧
      l'.rate = v * l.rate ∧ l'.primary = l.primary := by
  obtain ⟨r, hr⟩ := feStack_returns fuel hs limit Beam.new [] [Layer.new "Fe" 8 1 1] [] (by simp [Layer.new])
  obtain ⟨r', hr'⟩ := feStack_returns fuel hs limit Beam.new [] [Layer.new "Fe" 8 1 1] [Layer.new "Fe" 8 2 1] (by simp [Layer.new])
  obtain ⟨l, hl⟩ := feStack_line fuel hr
  obtain ⟨l', hl'⟩ := feStack_line fuel hr'
  obtain ⟨v, -, -, h3, -⟩ := C162_attenuator (c := feStack [] [Layer.new "Fe" 8 1 1] []) (feSound _ _) (fun h => by simp at h) [] []
    (Layer.new "Fe" 8 2 1) rfl [⟨"Fe", "K", -1⟩] (by simp) r r' hr hr' "Fe K" 0 "KL3".toList (by decide) l l' hl hl'
  refine ⟨r, r', l, l', v, hr, hr', hl, hl', h3, ?_⟩
  rcases C162_excitation (c := feStack [] [Layer.new "Fe" 8 1 1] []) (c' := feStack [] [Layer.new "Fe" 8 1 1] [Layer.new "Fe" 8 2 1])
    ⟨rfl, rfl⟩ [.ok ⟨"Fe", "K", -1⟩] r r' hr hr' "Fe K" 0 "KL3".toList with ⟨h4, -⟩ | ⟨m, m', h4, h5, h6⟩
  · rw [h4] at hl; cases hl
  · rw [hl] at h4
    rw [hl'] at h5
    cases h4
    cases h5
    rw [h6]

/-- `C163_filter`: the calculation with the filter returns. -/
theorem fe_filter (fuel : Nat) (srt : List (String × ℝ) → List (String × ℝ)) (hs : Library.SortsByEnergy srt) (limit : ℝ) :
    ∃ r v, fluorescence feParser (fuel + 1) feLibrary srt (feStack [Layer.new "Fe" 8 2 1] [Layer.new "Fe" 8 1 1] []) ⟨0, true, limit⟩ false
        feBeam [.ok ⟨"Fe", "K", -1⟩] = .ok r ∧
      fluorescence feParser (fuel + 1) feLibrary srt (feStack [] [Layer.new "Fe" 8 1 1] []) ⟨0, true, limit⟩ false
        (weaken v feBeam) [.ok ⟨"Fe", "K", -1⟩] = .ok r := by
  obtain ⟨r, hr⟩ := feStack_returns fuel hs limit feBeam [Layer.new "Fe" 8 2 1] [Layer.new "Fe" 8 1 1] []
    (by simp [Layer.new])
  obtain ⟨v, -, h⟩ := C163_filter (c := feStack [Layer.new "Fe" 8 2 1] [Layer.new "Fe" 8 1 1] []) [] [] (Layer.new "Fe" 8 2 1) rfl (by simp [feBeam])
    [.ok ⟨"Fe", "K", -1⟩] r hr
  exact ⟨r, v, hr, h⟩

/-- `C164_below`: both calculations return, with the line. -/
theorem fe_below (fuel : Nat) (srt : List (String × ℝ) → List (String × ℝ)) (hs : Library.SortsByEnergy srt) (limit : ℝ) :
    ∃ r r' l l', fluorescence feParser (fuel + 1) feLibrary srt (feStack [] [Layer.new "Fe" 8 1 1] []) ⟨0, true, limit⟩ false Beam.new
        [.ok ⟨"Fe", "K", -1⟩] = .ok r ∧
      fluorescence feParser (fuel + 1) feLibrary srt (feStack [] [Layer.new "Fe" 8 1 1, Layer.new "Fe" 8 2 1] []) ⟨0, true, limit⟩ false
        Beam.new [.ok ⟨"Fe", "K", -1⟩] = .ok r' ∧
      leaf? r "Fe K" 0 "KL3".toList = some l ∧ leaf? r' "Fe K" 0 "KL3".toList = some l' ∧
      l'.primary = l.primary := by
  obtain ⟨r, hr⟩ := feStack_returns fuel hs limit Beam.new [] [Layer.new "Fe" 8 1 1] [] (by simp [Layer.new])
  obtain ⟨r', hr'⟩ := feStack_returns fuel hs limit Beam.new [] [Layer.new "Fe" 8 1 1, Layer.new "Fe" 8 2 1] [] (by simp [Layer.new])
  obtain ⟨l, hl⟩ := feStack_line fuel hr
  obtain ⟨l', hl'⟩ := feStack_line fuel hr'
  refine ⟨r, r', l, l', hr, hr', hl, hl', ?_⟩
  rcases C164_below (c := feStack [] [Layer.new "Fe" 8 1 1] []) (feSound _ _) [Layer.new "Fe" 8 1 1] [] [Layer.new "Fe" 8 2 1] rfl
    [⟨"Fe", "K", -1⟩] (by simp) r r' hr hr' "Fe K" 0 (by simp) "KL3".toList (by decide) with ⟨h4, -⟩ | ⟨m, m', h4, h5, -, h6, -⟩
  · rw [h4] at hl; cases hl
  · rw [hl] at h4
    rw [hl'] at h5
    cases h4
    cases h5
    exact h6

end Multilayer
end Fisx
