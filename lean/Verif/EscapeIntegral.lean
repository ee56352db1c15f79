import Verif.LibraryEscape
import Mathlib.Analysis.SpecialFunctions.Integrals.Basic
import Mathlib.MeasureTheory.Integral.ExpDecay
import Mathlib.MeasureTheory.Integral.IntegralEqImproper
import Mathlib.Analysis.SpecialFunctions.ImproperIntegrals

/-!
# C33: the rate of an escape peak is the integral over the detector of the photons that leave it

A photon enters a thick detector under an angle of sine `s`. At mass depth `z` it interacts with probability
`rate * exp (-mi * z / s) / s` giving the fluorescent photon. That photon goes up in a direction of cosine `u` with density
`1 / 2` and leaves the detector with probability `exp (-mf * z / u)`.
-/

set_option linter.unusedSectionVars false

namespace Fisx
namespace Library

open MeasureTheory

/-- Probability that a photon gives a fluorescent photon that leaves a thick detector through its front. -/
noncomputable def escapeProbability (s mi mf rate : ℝ) : ℝ :=
  ∫ u in (0 : ℝ)..1, ∫ z in Set.Ioi (0 : ℝ), rate * (Real.exp (-(mi * z / s)) / s) * (1 / 2 * Real.exp (-(mf * z / u)))

/-- Probability that a photon interacts with a detector of a given mass thickness. -/
noncomputable def absorbedProbability (s mi thickness : ℝ) : ℝ := ∫ z in (0 : ℝ)..thickness, mi / s * Real.exp (-(mi * z / s))

theorem inner_integral {s mi mf u : ℝ} (hs : 0 < s) (hi : 0 < mi) (hf : 0 < mf) (hu : 0 < u) (rate : ℝ) :
    ∫ z in Set.Ioi (0 : ℝ), rate * (Real.exp (-(mi * z / s)) / s) * (1 / 2 * Real.exp (-(mf * z / u))) =
      rate / 2 * (u / (mi * u + mf * s)) := by
  have ha : -(mi / s + mf / u) < 0 := by have : 0 < mi / s + mf / u := by positivity
                                         linarith
  have h := integral_exp_mul_Ioi ha 0
  have he : ∀ z : ℝ, rate * (Real.exp (-(mi * z / s)) / s) * (1 / 2 * Real.exp (-(mf * z / u))) =
      rate / (2 * s) * Real.exp (-(mi / s + mf / u) * z) := by
    intro z
    have : -(mi / s + mf / u) * z = -(mi * z / s) + -(mf * z / u) := by ring
    rw [this, Real.exp_add]
    field_simp
  simp only [he]
  rw [integral_const_mul, h, mul_zero, Real.exp_zero]
  field_simp

theorem outer_integral {a b : ℝ} (ha : 0 < a) (hb : 0 < b) :
    ∫ u in (0 : ℝ)..1, u / (a * u + b) = 1 / a - b / a ^ 2 * (Real.log (a + b) - Real.log b) := by
  have hd : ∀ u ∈ Set.uIcc (0 : ℝ) 1, HasDerivAt (fun u => u / a - b / a ^ 2 * Real.log (a * u + b)) (u / (a * u + b)) u := by
    intro u hu
    rw [Set.uIcc_of_le zero_le_one] at hu
    have hpos : 0 < a * u + b := by have := mul_nonneg ha.le hu.1; linarith
    have h1 : HasDerivAt (fun u => a * u + b) a u := by
      simpa using ((hasDerivAt_id u).const_mul a).add_const b
    have h2 := (h1.log hpos.ne').const_mul (b / a ^ 2)
    have h3 := ((hasDerivAt_id u).div_const a).sub h2
    have hv : u / (a * u + b) = 1 / a - b / a ^ 2 * (a / (a * u + b)) := by
      have hne := hpos.ne'
      have hx : a / (a * u + b) * (a * u + b) = a := div_mul_cancel₀ _ hne
      rw [div_eq_iff hne, sub_mul, mul_assoc, hx]
      field_simp
      ring
    rw [hv]
    exact h3
  rw [intervalIntegral.integral_eq_sub_of_hasDerivAt hd]
  · simp
    ring
  · apply ContinuousOn.intervalIntegrable
    rw [Set.uIcc_of_le zero_le_one]
    refine continuousOn_id.div (by fun_prop) ?_
    intro u hu
    have := mul_nonneg ha.le hu.1
    have : 0 < a * u + b := by linarith
    exact this.ne'

/-- **C33** The rate of an escape peak per incident photon is the probability that the photon gives the fluorescent photon and that one
leaves the detector. -/
theorem C33_escape_probability (s mi mf rate : ℝ) (hs : 0 < s) (hi : 0 < mi) (hf : 0 < mf) :
    escapeRate s mi mf rate = escapeProbability s mi mf rate := by
  have hout : escapeProbability s mi mf rate = ∫ u in (0 : ℝ)..1, rate / 2 * (u / (mi * u + mf * s)) := by
    unfold escapeProbability
    apply intervalIntegral.integral_congr_ae
    refine Filter.Eventually.of_forall fun u hu => ?_
    rw [Set.uIoc_of_le zero_le_one] at hu
    exact inner_integral hs hi hf hu.1 rate
  rw [hout, intervalIntegral.integral_const_mul, outer_integral hi (mul_pos hf hs)]
  unfold escapeRate
  have hlog : Trans.log (1 + 1 / (s * (mf / mi))) = Real.log (mi + mf * s) - Real.log (mf * s) := by
    rw [← Real.log_div (by positivity) (by positivity)]
    show Real.log _ = _
    congr 1
    field_simp
    ring
  dsimp only
  rw [hlog]
  field_simp

/-- **C33** With a thickness, the rate is divided by the probability that the photon interacts in the detector. -/
theorem C33_detected_probability (s mi thickness : ℝ) (ht : 0 < thickness) :
    intrinsicEfficiency mi thickness s = absorbedProbability s mi thickness := by
  unfold intrinsicEfficiency absorbedProbability
  rw [if_pos ht]
  have hd : ∀ z ∈ Set.uIcc (0 : ℝ) thickness, HasDerivAt (fun z => -Real.exp (-(mi * z / s))) (mi / s * Real.exp (-(mi * z / s))) z := by
    intro z _
    have h1 : HasDerivAt (fun z => -(mi * z / s)) (-(mi / s)) z := by
      have := (((hasDerivAt_id z).const_mul mi).div_const s).neg
      rw [mul_one] at this
      exact this
    have h2 := h1.exp.neg
    have hv : mi / s * Real.exp (-(mi * z / s)) = -(Real.exp (-(mi * z / s)) * -(mi / s)) := by ring
    rw [hv]
    exact h2
  rw [intervalIntegral.integral_eq_sub_of_hasDerivAt hd]
  · show 1 - Real.exp (-mi * thickness / s) = _
    simp
    ring_nf
  · apply Continuous.intervalIntegrable
    fun_prop

/-- **C33** The rate of every escape peak that is returned, for a sensible detector: the probability that a photon of the beam gives the
peak, per incident photon or, with a thickness, per photon that interacts with the detector. -/
theorem C33_rate (pf : String → Outcome (SMap String ℝ)) (L : Library ℝ) (d : Nat) (key : EscapeKey ℝ) (E : ℝ) (mi : Mix ℝ)
    (name : String) (line : Line ℝ) (n : String) (t : Str) (f : Factor ℝ) (mf : Mix ℝ)
    (h : EscapePeak pf L d key E mi name line n t f mf) (hs : 0 < sinAlpha key.alphaIn) (hi : 0 < mi.total) (hf : 0 < mf.total) :
    line.rate = escapeProbability (sinAlpha key.alphaIn) mi.total mf.total f.rate /
      (if key.thickness > 0 then absorbedProbability (sinAlpha key.alphaIn) mi.total key.thickness else 1) := by
  rw [h.rate_eq, C33_escape_probability _ _ _ _ hs hi hf]
  split
  · rename_i ht
    rw [C33_detected_probability _ _ _ ht]
  · rw [div_one]

end Library
end Fisx
