import Verif.MathPV
import Mathlib.Analysis.SpecialFunctions.Log.NegMulLog

/-!
# `Math::deBoerL0` against the double integral it stands for (C135, C136)
-/

set_option linter.unusedSectionVars false

namespace Fisx
namespace MathFn

open MeasureTheory Set Filter Topology

/-! ### The exponential integral near 0 -/

theorem trueE1_nonneg (x : ℝ) (hx : 0 < x) : 0 ≤ trueE1 x :=
  le_trans (by positivity) (trueE1_bounds hx).1

theorem trueE1_hasDeriv {x : ℝ} (hx : 0 < x) : HasDerivAt trueE1 (-(Real.exp (-x) / x)) x := by
  have hc : 0 < x / 2 := by linarith
  have hcont : ContinuousOn (fun t : ℝ => Real.exp (-t) / t) (Ioi 0) := by
    intro t ht
    have : t ≠ 0 := (show 0 < t from ht).ne'
    exact ((Real.continuous_exp.comp continuous_neg).continuousAt.div continuousAt_id this).continuousWithinAt
  have hsplit : ∀ z, 0 < z → (∫ t in (x / 2)..z, Real.exp (-t) / t) + trueE1 z = trueE1 (x / 2) := fun z hz =>
    intervalIntegral.integral_interval_add_Ioi (integrable_exp_div hc) (integrable_exp_div hz)
  have hint : IntervalIntegrable (fun t : ℝ => Real.exp (-t) / t) volume (x / 2) x := by
    apply ContinuousOn.intervalIntegrable
    apply hcont.mono
    rw [uIcc_of_le (by linarith)]
    intro t ht
    exact lt_of_lt_of_le hc ht.1
  have hmeas : StronglyMeasurableAtFilter (fun t : ℝ => Real.exp (-t) / t) (𝓝 x) volume :=
    hcont.stronglyMeasurableAtFilter isOpen_Ioi x hx
  have h := intervalIntegral.integral_hasDerivAt_right hint hmeas
    (hcont.continuousAt (Ioi_mem_nhds hx))
  have h2 := h.const_sub (trueE1 (x / 2))
  refine h2.congr_of_eventuallyEq ?_
  filter_upwards [Ioi_mem_nhds hx] with z hz
  have := hsplit z hz
  linarith

/-- E1(x) + log(x) is Lipschitz. -/
theorem phi_lipschitz {x y : ℝ} (hx : 0 < x) (hy : 0 < y) :
    |(trueE1 y + Real.log y) - (trueE1 x + Real.log x)| ≤ |y - x| := by
  have h := Convex.norm_image_sub_le_of_norm_hasDerivWithin_le (𝕜 := ℝ) (f := fun x => trueE1 x + Real.log x)
    (f' := fun x => -(Real.exp (-x) / x) + x⁻¹) (s := Ioi 0) (C := 1) (x := x) (y := y)
    (fun t ht => ((trueE1_hasDeriv ht).add (Real.hasDerivAt_log (show t ≠ 0 from (show 0 < t from ht).ne'))).hasDerivWithinAt)
    (by
      intro t ht
      have ht0 : 0 < t := ht
      have e : -(Real.exp (-t) / t) + t⁻¹ = (1 - Real.exp (-t)) / t := by field_simp; ring
      have h1 : Real.exp (-t) ≤ 1 := Real.exp_le_one_iff.2 (by linarith)
      have h2 := Real.add_one_le_exp (-t)
      rw [e, Real.norm_eq_abs, abs_of_nonneg (div_nonneg (by linarith) ht0.le), div_le_one ht0]
      linarith) (convex_Ioi 0) hx hy
  simpa using h

/-- Bound near 0. -/
theorem trueE1_le_log {x : ℝ} (h0 : 0 < x) (h1 : x ≤ 1) : trueE1 x ≤ 2 - Real.log x := by
  have h := phi_lipschitz h0 one_pos
  have b := (trueE1_bounds (x := 1) one_pos).2
  have e : Real.exp (-1) ≤ 1 := Real.exp_le_one_iff.2 (by norm_num)
  have h2 : |(1 : ℝ) - x| ≤ 1 := by rw [abs_le]; constructor <;> linarith
  rw [Real.log_one] at h
  have := (abs_le.1 (h.trans h2)).1
  linarith

theorem mul_trueE1_tendsto {mu : ℝ} (hm : 0 < mu) : Tendsto (fun r => r * trueE1 (mu * r)) (𝓝[>] 0) (𝓝 0) := by
  have h1 : Tendsto (fun r : ℝ => Real.log r * r) (𝓝[>] 0) (𝓝 0) := by
    simpa only [Real.rpow_one] using tendsto_log_mul_rpow_nhdsGT_zero zero_lt_one
  have h2 : Tendsto (fun r : ℝ => (2 - Real.log mu) * r - Real.log r * r) (𝓝[>] 0) (𝓝 0) := by
    have : Tendsto (fun r : ℝ => (2 - Real.log mu) * r) (𝓝[>] 0) (𝓝 0) := by
      have h : Continuous (fun r : ℝ => (2 - Real.log mu) * r) := by fun_prop
      have := h.tendsto 0
      rw [mul_zero] at this
      exact this.mono_left nhdsWithin_le_nhds
    simpa using this.sub h1
  have hev : ∀ᶠ r in 𝓝[>] (0 : ℝ), 0 < r ∧ mu * r ≤ 1 := by
    have : Ioo (0 : ℝ) (1 / mu) ∈ 𝓝[>] (0 : ℝ) := Ioo_mem_nhdsGT (by positivity)
    filter_upwards [this] with r hr
    refine ⟨hr.1, ?_⟩
    have := hr.2.le
    rw [le_div_iff₀ hm] at this
    linarith
  refine squeeze_zero' ?_ ?_ h2
  · filter_upwards [hev] with r hr
    exact mul_nonneg hr.1.le (trueE1_nonneg _ (mul_pos hm hr.1))
  · filter_upwards [hev] with r hr
    have := trueE1_le_log (mul_pos hm hr.1) hr.2
    rw [Real.log_mul hm.ne' hr.1.ne'] at this
    nlinarith [hr.1]

/-! ### The inner integral -/

/-- A primitive of exp(-a u) E1(mu u), null at 0. -/
noncomputable def kPrim (a mu r : ℝ) : ℝ :=
  (Real.log (1 + a / mu) + pvE1 ((mu + a) * r) - Real.exp (-(a * r)) * trueE1 (mu * r)) / a

theorem kPrim_hasDeriv {a mu r : ℝ} (ha : a ≠ 0) (hm : 0 < mu) (hma : mu + a ≠ 0) (hr : 0 < r) :
    HasDerivAt (kPrim a mu) (Real.exp (-(a * r)) * trueE1 (mu * r)) r := by
  have hl : ∀ c : ℝ, HasDerivAt (fun r : ℝ => c * r) c r := fun c => by
    simpa using (hasDerivAt_id r).const_mul c
  have h1 : HasDerivAt (fun r => pvE1 ((mu + a) * r)) (-(Real.exp (-((mu + a) * r)) / ((mu + a) * r)) * (mu + a)) r :=
    (pvE1_hasDeriv (mul_ne_zero hma hr.ne')).comp r (hl (mu + a))
  have h2 : HasDerivAt (fun r => trueE1 (mu * r)) (-(Real.exp (-(mu * r)) / (mu * r)) * mu) r :=
    (trueE1_hasDeriv (mul_pos hm hr)).comp r (hl mu)
  have h3 : HasDerivAt (fun r : ℝ => Real.exp (-(a * r))) (Real.exp (-(a * r)) * (-a)) r := ((hl a).neg).exp
  have h := ((h1.const_add (Real.log (1 + a / mu))).sub (h3.mul h2)).div_const a
  refine h.congr_deriv ?_
  have e : Real.exp (-((mu + a) * r)) = Real.exp (-(a * r)) * Real.exp (-(mu * r)) := by
    rw [← Real.exp_add]; congr 1; ring
  rw [e]
  field_simp
  ring

theorem kPrim_tendsto {a mu : ℝ} (ha : a ≠ 0) (hm : 0 < mu) (hma : mu + a ≠ 0) :
    Tendsto (kPrim a mu) (𝓝[>] 0) (𝓝 0) := by
  have key : Tendsto (fun r => (Real.log (1 + a / mu) + pvE1 ((mu + a) * r) - trueE1 (mu * r))) (𝓝[>] 0) (𝓝 0) := by
    have hc : Continuous (fun r : ℝ => ePhi ((mu + a) * r) - ePhi (mu * r)) := by
      have := ePhi_continuous
      fun_prop
    have ht := (hc.tendsto 0).mono_left (nhdsWithin_le_nhds (s := Ioi 0))
    simp only [mul_zero, sub_self] at ht
    refine ht.congr' ?_
    filter_upwards [self_mem_nhdsWithin] with r hr
    have hr0 : 0 < r := hr
    have e : Real.log (1 + a / mu) = Real.log (mu + a) - Real.log mu := by
      rw [← Real.log_div hma hm.ne']
      congr 1
      field_simp
    rw [← pvE1_pos (mul_pos hm hr0), e]
    unfold pvE1
    rw [Real.log_mul hm.ne' hr0.ne', Real.log_mul hma hr0.ne']
    ring
  have h2 : Tendsto (fun r => (1 - Real.exp (-(a * r))) * trueE1 (mu * r)) (𝓝[>] 0) (𝓝 0) := by
    have hb := (mul_trueE1_tendsto hm).const_mul (2 * |a|)
    rw [mul_zero] at hb
    have hev : Ioo (0 : ℝ) (1 / |a|) ∈ 𝓝[>] (0 : ℝ) := Ioo_mem_nhdsGT (by positivity)
    refine squeeze_zero_norm' ?_ hb
    filter_upwards [hev] with r hr
    have hr0 : 0 < r := hr.1
    have hE := trueE1_nonneg _ (mul_pos hm hr0)
    have har : |-(a * r)| ≤ 1 := by
      rw [abs_neg, abs_mul, abs_of_pos hr0]
      have := hr.2.le
      rw [le_div_iff₀ (abs_pos.2 ha)] at this
      linarith
    have hx := Real.abs_exp_sub_one_le har
    rw [abs_neg, abs_mul, abs_of_pos hr0] at hx
    rw [norm_mul, Real.norm_eq_abs, Real.norm_eq_abs, abs_of_nonneg hE, abs_sub_comm]
    calc _ ≤ 2 * (|a| * r) * trueE1 (mu * r) := mul_le_mul_of_nonneg_right hx hE
      _ = _ := by ring
  have h3 := (key.add h2).div_const a
  simp only [add_zero, zero_div] at h3
  refine h3.congr ?_
  intro r
  unfold kPrim
  ring

/-- The integral of exp(-a u) E1(mu u) from 0 to r. -/
noncomputable def kInt (a mu r : ℝ) : ℝ := ∫ u in (0 : ℝ)..r, Real.exp (-(a * u)) * trueE1 (mu * u)

theorem kInt_integrable {a mu r : ℝ} (ha : a ≠ 0) (hm : 0 < mu) (hma : mu + a ≠ 0) (hr : 0 ≤ r) :
    IntervalIntegrable (fun u => Real.exp (-(a * u)) * trueE1 (mu * u)) volume 0 r := by
  rcases hr.eq_or_lt with rfl | hr0
  · exact IntervalIntegrable.refl
  rw [intervalIntegrable_iff_integrableOn_Ioc_of_le hr]
  apply intervalIntegral.integrableOn_deriv_of_nonneg (g := Function.update (kPrim a mu) 0 0)
  · intro t ht
    rcases ht.1.eq_or_lt with h | h
    · subst h
      rw [continuousWithinAt_update_same]
      refine (kPrim_tendsto ha hm hma).mono_left ?_
      apply nhdsWithin_mono
      intro z hz
      exact lt_of_le_of_ne hz.1.1 (Ne.symm hz.2)
    · apply ContinuousAt.continuousWithinAt
      rw [continuousAt_update_of_ne h.ne']
      exact (kPrim_hasDeriv ha hm hma h).continuousAt
  · intro t ht
    refine (kPrim_hasDeriv ha hm hma ht.1).congr_of_eventuallyEq ?_
    filter_upwards [Ioi_mem_nhds ht.1] with z hz
    exact Function.update_of_ne (show 0 < z from hz).ne' _ _
  · intro t ht
    exact mul_nonneg (Real.exp_pos _).le (trueE1_nonneg _ (mul_pos hm ht.1))

theorem kInt_eq {a mu r : ℝ} (ha : a ≠ 0) (hm : 0 < mu) (hma : mu + a ≠ 0) (hr : 0 < r) :
    kInt a mu r = kPrim a mu r := by
  have h := intervalIntegral.integral_eq_sub_of_hasDerivAt_of_tendsto hr
    (fun t ht => kPrim_hasDeriv ha hm hma ht.1) (kInt_integrable ha hm hma hr.le) (kPrim_tendsto ha hm hma)
    ((kPrim_hasDeriv ha hm hma hr).continuousAt.tendsto.mono_left nhdsWithin_le_nhds)
  rw [sub_zero] at h
  exact h

theorem kInt_continuous {a mu d : ℝ} (ha : a ≠ 0) (hm : 0 < mu) (hma : mu + a ≠ 0) (hd : 0 ≤ d) :
    ContinuousOn (kInt a mu) (Icc 0 d) := by
  have h := intervalIntegral.continuousOn_primitive_interval' (kInt_integrable ha hm hma hd)
    (show (0 : ℝ) ∈ uIcc 0 d from left_mem_uIcc)
  rwa [uIcc_of_le hd] at h

theorem kInt_hasDeriv {a mu r : ℝ} (ha : a ≠ 0) (hm : 0 < mu) (hma : mu + a ≠ 0) (hr : 0 < r) :
    HasDerivAt (kInt a mu) (Real.exp (-(a * r)) * trueE1 (mu * r)) r := by
  refine (kPrim_hasDeriv ha hm hma hr).congr_of_eventuallyEq ?_
  filter_upwards [Ioi_mem_nhds hr] with z hz
  exact kInt_eq ha hm hma hz

/-! ### The double integral -/

/-- The enhancement inside a layer of mass thickness d, per unit of solid angle: radiation attenuated by `mu2` excites
at the depth x, what it emits reaches the depth y below with the coefficient `muj` (the exponential integral is the
average over the directions), and the attenuation from y is `mu1`. -/
noncomputable def layerIntegral (mu1 mu2 muj d : ℝ) : ℝ :=
  ∫ x in (0 : ℝ)..d, ∫ y in x..d, Real.exp (-(mu2 * x) - mu1 * y) * ∫ t in Set.Ioi (muj * (y - x)), Real.exp (-t) / t

theorem layerIntegral_single (mu1 mu2 muj d : ℝ) :
    layerIntegral mu1 mu2 muj d = ∫ r in (0 : ℝ)..d, Real.exp (-((mu1 + mu2) * (d - r))) * kInt mu1 muj r := by
  have inner : ∀ x : ℝ, (∫ y in x..d, Real.exp (-(mu2 * x) - mu1 * y) * ∫ t in Set.Ioi (muj * (y - x)), Real.exp (-t) / t)
      = Real.exp (-((mu1 + mu2) * x)) * kInt mu1 muj (d - x) := by
    intro x
    have h := intervalIntegral.integral_comp_sub_right (a := x) (b := d)
      (fun u => Real.exp (-((mu1 + mu2) * x)) * (Real.exp (-(mu1 * u)) * trueE1 (muj * u))) x
    rw [sub_self] at h
    unfold kInt
    rw [← intervalIntegral.integral_const_mul, ← h]
    apply intervalIntegral.integral_congr
    intro y _
    simp only [trueE1]
    rw [← mul_assoc, ← Real.exp_add]
    congr 2
    ring
  unfold layerIntegral
  have h := intervalIntegral.integral_comp_sub_left (a := 0) (b := d)
    (fun r => Real.exp (-((mu1 + mu2) * (d - r))) * kInt mu1 muj r) d
  rw [sub_self, sub_zero] at h
  rw [← h]
  apply intervalIntegral.integral_congr
  intro x _
  simp only
  rw [inner x]
  congr 2
  ring

theorem layerIntegral_eq {mu1 mu2 muj d : ℝ} (h1 : 0 < mu1) (h2 : 0 < mu2) (hmj : 0 < muj) (hj : mu2 ≠ muj) (hd : 0 < d) :
    layerIntegral mu1 mu2 muj d =
      (kInt mu1 muj d - Real.exp (-((mu1 + mu2) * d)) * kInt (-mu2) muj d) / (mu1 + mu2) := by
  have hm : 0 < mu1 + mu2 := by linarith
  have ha1 : mu1 ≠ 0 := h1.ne'
  have ha2 : -mu2 ≠ 0 := neg_ne_zero.2 h2.ne'
  have hp1 : muj + mu1 ≠ 0 := by positivity
  have hp2 : muj + -mu2 ≠ 0 := fun h => hj (by linarith)
  rw [layerIntegral_single]
  have hc1 := kInt_continuous ha1 hmj hp1 hd.le
  have hc2 := kInt_continuous ha2 hmj hp2 hd.le
  have hexp : Continuous (fun r : ℝ => Real.exp (-((mu1 + mu2) * (d - r)))) := by fun_prop
  have hG : ContinuousOn (fun r => (Real.exp (-((mu1 + mu2) * (d - r))) * kInt mu1 muj r
      - Real.exp (-((mu1 + mu2) * d)) * kInt (-mu2) muj r) / (mu1 + mu2)) (Icc 0 d) :=
    ((hexp.continuousOn.mul hc1).sub (continuousOn_const.mul hc2)).div_const _
  have hI : IntervalIntegrable (fun r => Real.exp (-((mu1 + mu2) * (d - r))) * kInt mu1 muj r) volume 0 d := by
    apply ContinuousOn.intervalIntegrable
    rw [uIcc_of_le hd.le]
    exact hexp.continuousOn.mul hc1
  have h := intervalIntegral.integral_eq_sub_of_hasDerivAt_of_le hd.le hG (f' := fun r =>
      Real.exp (-((mu1 + mu2) * (d - r))) * kInt mu1 muj r) (by
    intro r hr
    have d1 := kInt_hasDeriv ha1 hmj hp1 hr.1
    have d2 := kInt_hasDeriv ha2 hmj hp2 hr.1
    have d3 : HasDerivAt (fun r : ℝ => Real.exp (-((mu1 + mu2) * (d - r))))
        (Real.exp (-((mu1 + mu2) * (d - r))) * (mu1 + mu2)) r := by
      have a : HasDerivAt (fun r : ℝ => -((mu1 + mu2) * (d - r))) (-((mu1 + mu2) * (-1))) r :=
        (((hasDerivAt_id r).const_sub d).const_mul (mu1 + mu2)).neg
      exact a.exp.congr_deriv (by ring)
    refine (((d3.mul d1).sub (d2.const_mul (Real.exp (-((mu1 + mu2) * d))))).div_const (mu1 + mu2)).congr_deriv ?_
    have e : Real.exp (-((mu1 + mu2) * (d - r))) * Real.exp (-(mu1 * r))
        = Real.exp (-((mu1 + mu2) * d)) * Real.exp (-(-mu2 * r)) := by
      rw [← Real.exp_add, ← Real.exp_add]; congr 1; ring
    generalize trueE1 (muj * r) = T
    generalize Real.exp (-((mu1 + mu2) * (d - r))) = X1 at *
    generalize Real.exp (-(mu1 * r)) = X2 at *
    generalize Real.exp (-((mu1 + mu2) * d)) = X3 at *
    generalize Real.exp (-(-mu2 * r)) = X4 at *
    rw [div_eq_iff hm.ne']
    linear_combination T * e) hI
  rw [h]
  simp [kInt]

/-- The formula of fisx_math.cpp:277-293 (`Real.log` is the logarithm of the absolute value). -/
noncomputable def formulaL0 (mu1 mu2 muj d D1 D2 D3 : ℝ) : ℝ :=
  (D1 / (mu2 * (mu1 + mu2)) - D2 / (mu1 * mu2) + D3 / (mu1 * (mu1 + mu2))) * Real.exp (-(mu1 + muj) * d)
    + Real.log (1 + mu1 / muj) / (mu1 * (mu1 + mu2))
    + Real.exp (-(mu1 + mu2) * d) / (mu2 * (mu1 + mu2)) * Real.log (1 - mu2 / muj)

theorem deBoerL0Formula_eq {mu1 mu2 muj d D1 D2 D3 : ℝ} (h1 : 0 < mu1) (hmj : 0 < muj) (hj : mu2 ≠ muj) :
    deBoerL0Formula mu1 mu2 muj d D1 D2 D3 = some (formulaL0 mu1 mu2 muj d D1 D2 D3) := by
  have a : ¬ (1 + mu1 / muj ≤ 0) := by push Not; positivity
  unfold deBoerL0Formula flog
  rw [if_neg a]
  rcases lt_or_gt_of_ne hj with h | h
  · have b : ¬ (1 - mu2 / muj ≤ 0) := by
      push Not
      rw [sub_pos, div_lt_one hmj]
      exact h
    rw [if_neg b]
    simp [h, formulaL0]
  · have b : ¬ (mu2 / muj - 1 ≤ 0) := by
      push Not
      rw [sub_pos, one_lt_div hmj]
      exact h
    rw [if_neg b, ← Real.log_neg_eq_log (mu2 / muj - 1), neg_sub]
    simp [not_lt.2 h.le, formulaL0]

/-- With the exact exponential integrals the formula is the double integral. -/
theorem formula_exact {mu1 mu2 muj d : ℝ} (h1 : 0 < mu1) (h2 : 0 < mu2) (hmj : 0 < muj) (hj : mu2 ≠ muj) (hd : 0 < d) :
    formulaL0 mu1 mu2 muj d (Real.exp ((muj - mu2) * d) * pvE1 ((muj - mu2) * d))
      (Real.exp (muj * d) * pvE1 (muj * d)) (Real.exp ((muj + mu1) * d) * pvE1 ((muj + mu1) * d))
    = layerIntegral mu1 mu2 muj d := by
  rw [layerIntegral_eq h1 h2 hmj hj hd, kInt_eq h1.ne' hmj (by positivity) hd,
    kInt_eq (neg_ne_zero.2 h2.ne') hmj (fun h => hj (by linarith)) hd, pvE1_pos (mul_pos hmj hd)]
  unfold formulaL0 kPrim
  have e1 : Real.exp (-(mu1 + muj) * d) * Real.exp ((muj - mu2) * d) = Real.exp (-((mu1 + mu2) * d)) := by
    rw [← Real.exp_add]; congr 1; ring
  have e2 : Real.exp (-(mu1 + muj) * d) * Real.exp (muj * d) = Real.exp (-(mu1 * d)) := by
    rw [← Real.exp_add]; congr 1; ring
  have e3 : Real.exp (-(mu1 + muj) * d) * Real.exp ((muj + mu1) * d) = 1 := by
    rw [← Real.exp_add]; simp; ring
  have e4 : Real.exp (-((mu1 + mu2) * d)) * Real.exp (-(-mu2 * d)) = Real.exp (-(mu1 * d)) := by
    rw [← Real.exp_add]; congr 1; ring
  have e5 : -(mu1 + mu2) * d = -((mu1 + mu2) * d) := by ring
  have e6 : 1 + -mu2 / muj = 1 - mu2 / muj := by ring
  have e7 : muj + -mu2 = muj - mu2 := by ring
  rw [e5, e6, e7]
  generalize pvE1 ((muj - mu2) * d) = T1
  generalize trueE1 (muj * d) = T2
  generalize pvE1 ((muj + mu1) * d) = T3
  generalize Real.log (1 + mu1 / muj) = L1
  generalize Real.log (1 - mu2 / muj) = L2
  have hm : mu1 + mu2 ≠ 0 := by positivity
  generalize Real.exp (-(mu1 + muj) * d) = Y0 at *
  generalize Real.exp ((muj - mu2) * d) = Y1 at *
  generalize Real.exp (muj * d) = Y2 at *
  generalize Real.exp ((muj + mu1) * d) = Y3 at *
  generalize Real.exp (-((mu1 + mu2) * d)) = Y4 at *
  generalize Real.exp (-(-mu2 * d)) = Y5 at *
  generalize Real.exp (-(mu1 * d)) = Y6 at *
  field_simp
  linear_combination mu1 * T1 * e1 - (mu1 + mu2) * T2 * e2 + mu2 * T3 * e3 + mu1 * T2 * e4

/-! ## C135 -/

/-- **C135** (partial) In the range of the general formula, and for coefficients `mu2` and `muj` that differ,
deBoerL0 returns the double integral over the layer, with the error bound below; it can only throw when the integral
itself is below that bound. The bound comes from the exponential integrals; for `muj < mu2` one of them has a negative
argument. Missing: `mu2 = muj` (see `C60_equal_coefficients_violated`), the thick and thin approximations (see
`C136_thick_violated`), and that the bound is small, which fails for `muj < mu2` as in `C133_negative_violated`. -/
theorem C135_integral_partial {mu1 mu2 muj density thickness : ℝ} (h1 : 0 < mu1) (h2 : 0 < mu2) (hmj : 0 < muj)
    (hj : mu2 ≠ muj)
    (hlo : 0.01 ≤ (mu1 + mu2) * (thickness * density)) (hhi : (mu1 + mu2) * (thickness * density) ≤ 10) :
    let d := thickness * density
    let I := ∫ x in (0 : ℝ)..d, ∫ y in x..d,
      Real.exp (-(mu2 * x) - mu1 * y) * ∫ t in Set.Ioi (muj * (y - x)), Real.exp (-t) / t
    let e1 := if mu2 < muj then 1.2e-6 / ((muj - mu2) * d) else 3e-9 + ((mu2 - muj) * d) ^ 11 / 439084800
    let err := Real.exp (-(mu1 + muj) * d) * (e1 / (mu2 * (mu1 + mu2))
      + 1.2e-6 / (muj * d) / (mu1 * mu2) + 1.2e-6 / ((muj + mu1) * d) / (mu1 * (mu1 + mu2)))
    (∃ v, deBoerL0 mu1 mu2 muj density thickness = .ok v ∧ 0 ≤ v ∧ |v - I| ≤ err) ∨
    (deBoerL0 mu1 mu2 muj density thickness = .throw .runtimeError ∧ I < err) := by
  intro d I er1 err
  have hm : 0 < mu1 + mu2 := by linarith
  have hd : 0 < d := by
    by_contra hc
    have : (mu1 + mu2) * d ≤ 0 := mul_nonpos_of_nonneg_of_nonpos hm.le (not_lt.1 hc)
    norm_num at hlo
    linarith
  have x1 : (muj - mu2) * d ≠ 0 := mul_ne_zero (fun h => hj (by linarith)) hd.ne'
  have x2 : 0 < muj * d := mul_pos hmj hd
  have x3 : 0 < (muj + mu1) * d := mul_pos (by linarith) hd
  obtain ⟨D1, hD1, c1⟩ := deBoerD_pv x1
  obtain ⟨D2, hD2, c2⟩ := deBoerD_pv x2.ne'
  obtain ⟨D3, hD3, c3⟩ := deBoerD_pv x3.ne'
  have f1 : errD ((muj - mu2) * d) = er1 := by
    simp only [er1, errD]
    by_cases h : mu2 < muj
    · rw [if_pos h, if_pos (mul_pos (by linarith) hd)]
    · have : (muj - mu2) * d ≤ 0 := mul_nonpos_of_nonpos_of_nonneg (by linarith) hd.le
      rw [if_neg h, if_neg (not_lt.2 this), abs_of_nonpos this]
      ring
  have f2 : errD (muj * d) = 1.2e-6 / (muj * d) := if_pos x2
  have f3 : errD ((muj + mu1) * d) = 1.2e-6 / ((muj + mu1) * d) := if_pos x3
  rw [f1] at c1
  rw [f2] at c2
  rw [f3] at c3
  have hI : I = layerIntegral mu1 mu2 muj d := rfl
  rw [← formula_exact h1 h2 hmj hj hd] at hI
  have herr : |formulaL0 mu1 mu2 muj d D1 D2 D3 - I| ≤ err := by
    rw [hI]
    unfold formulaL0
    have hE := Real.exp_pos (-(mu1 + muj) * d)
    generalize Real.exp ((muj - mu2) * d) * pvE1 ((muj - mu2) * d) = T1 at *
    generalize Real.exp (muj * d) * pvE1 (muj * d) = T2 at *
    generalize Real.exp ((muj + mu1) * d) * pvE1 ((muj + mu1) * d) = T3 at *
    have e : ∀ p q : ℝ, (D1 / (mu2 * (mu1 + mu2)) - D2 / (mu1 * mu2) + D3 / (mu1 * (mu1 + mu2)))
          * Real.exp (-(mu1 + muj) * d) + p + q
        - ((T1 / (mu2 * (mu1 + mu2)) - T2 / (mu1 * mu2) + T3 / (mu1 * (mu1 + mu2)))
          * Real.exp (-(mu1 + muj) * d) + p + q)
        = Real.exp (-(mu1 + muj) * d) * ((D1 - T1) / (mu2 * (mu1 + mu2)) - (D2 - T2) / (mu1 * mu2)
          + (D3 - T3) / (mu1 * (mu1 + mu2))) := by intro p q; ring
    rw [e, abs_mul, abs_of_pos hE]
    apply mul_le_mul_of_nonneg_left _ hE.le
    have p1 : 0 < mu2 * (mu1 + mu2) := by positivity
    have p2 : 0 < mu1 * mu2 := by positivity
    have p3 : 0 < mu1 * (mu1 + mu2) := by positivity
    refine le_trans (abs_add_le _ _) (add_le_add (le_trans (abs_sub _ _) (add_le_add ?_ ?_)) ?_)
    · rw [abs_div, abs_of_pos p1]; exact div_le_div_of_nonneg_right c1 p1.le
    · rw [abs_div, abs_of_pos p2]; exact div_le_div_of_nonneg_right c2 p2.le
    · rw [abs_div, abs_of_pos p3]; exact div_le_div_of_nonneg_right c3 p3.le
  have hval : deBoerL0 mu1 mu2 muj density thickness = checkResult (some (formulaL0 mu1 mu2 muj d D1 D2 D3)) := by
    unfold deBoerL0
    rw [if_neg (by push Not; exact ⟨h1, h2, hmj⟩)]
    simp only
    rw [if_neg (not_lt.2 hhi), if_neg (not_lt.2 hlo)]
    change (do
      let D1 ← deBoerD ((muj - mu2) * d)
      let D2 ← deBoerD (muj * d)
      let D3 ← deBoerD ((muj + mu1) * d)
      checkResult (do deBoerL0Formula mu1 mu2 muj d (← D1) (← D2) (← D3))) = _
    rw [hD1, hD2, hD3]
    simp only [Outcome.ok_bind, Option.bind_eq_bind, Option.bind_some]
    rw [deBoerL0Formula_eq h1 hmj hj]
  rw [hval]
  unfold checkResult
  by_cases hn : formulaL0 mu1 mu2 muj d D1 D2 D3 < 0
  · right
    simp only [if_pos hn, true_and]
    have := (abs_le.1 herr).1
    linarith
  · left
    simp only [if_neg hn]
    exact ⟨_, rfl, not_lt.1 hn, herr⟩

/-- The hypotheses are met. -/
example : (0.01 : ℝ) ≤ (1 + 2) * (0.5 * 2) ∧ (1 + 2) * (0.5 * 2) ≤ (10 : ℝ) ∧ (2 : ℝ) ≠ 5 := by norm_num

/-! ## C136: thick and thin targets -/

theorem kInt_nonneg {a mu r : ℝ} (hm : 0 < mu) (hr : 0 ≤ r) : 0 ≤ kInt a mu r := by
  unfold kInt
  rw [intervalIntegral.integral_of_le hr]
  apply setIntegral_nonneg measurableSet_Ioc
  intro t ht
  exact mul_nonneg (Real.exp_pos _).le (trueE1_nonneg _ (mul_pos hm ht.1))

theorem kInt_mono {a mu r s : ℝ} (ha : a ≠ 0) (hm : 0 < mu) (hma : mu + a ≠ 0) (hr : 0 ≤ r) (hrs : r ≤ s) :
    kInt a mu r ≤ kInt a mu s := by
  have i1 := kInt_integrable ha hm hma hr
  have i2 := kInt_integrable ha hm hma (hr.trans hrs)
  have h := intervalIntegral.integral_add_adjacent_intervals i1 (i1.symm.trans i2)
  have hp : 0 ≤ ∫ u in r..s, Real.exp (-(a * u)) * trueE1 (mu * u) := by
    rw [intervalIntegral.integral_of_le hrs]
    apply setIntegral_nonneg measurableSet_Ioc
    intro t ht
    exact mul_nonneg (Real.exp_pos _).le (trueE1_nonneg _ (mul_pos hm (lt_of_le_of_lt hr ht.1)))
  unfold kInt
  linarith

theorem layerIntegral_le {mu1 mu2 muj d : ℝ} (h1 : 0 < mu1) (h2 : 0 < mu2) (hj : 0 < muj) (hd : 0 ≤ d) :
    layerIntegral mu1 mu2 muj d ≤ kInt mu1 muj d / (mu1 + mu2) := by
  have hm : 0 < mu1 + mu2 := by linarith
  rw [layerIntegral_single]
  have hc := kInt_continuous h1.ne' hj (by positivity : muj + mu1 ≠ 0) hd
  have hexp : Continuous (fun r : ℝ => Real.exp (-((mu1 + mu2) * (d - r)))) := by fun_prop
  have hI : IntervalIntegrable (fun r => Real.exp (-((mu1 + mu2) * (d - r))) * kInt mu1 muj r) volume 0 d := by
    apply ContinuousOn.intervalIntegrable
    rw [uIcc_of_le hd]
    exact hexp.continuousOn.mul hc
  have hJ : IntervalIntegrable (fun r => Real.exp (-((mu1 + mu2) * (d - r))) * kInt mu1 muj d) volume 0 d :=
    (hexp.mul continuous_const).intervalIntegrable 0 d
  have hle := intervalIntegral.integral_mono_on hd hI hJ (by
    intro r hr
    exact mul_le_mul_of_nonneg_left (kInt_mono h1.ne' hj (by positivity) hr.1 hr.2) (Real.exp_pos _).le)
  refine le_trans hle ?_
  have hv : (∫ r in (0 : ℝ)..d, Real.exp (-((mu1 + mu2) * (d - r))) * kInt mu1 muj d)
      = (1 - Real.exp (-((mu1 + mu2) * d))) * kInt mu1 muj d / (mu1 + mu2) := by
    rw [intervalIntegral.integral_eq_sub_of_hasDerivAt
      (f := fun r => Real.exp (-((mu1 + mu2) * (d - r))) * kInt mu1 muj d / (mu1 + mu2)) _ hJ]
    · simp
      ring
    · intro r _
      have a : HasDerivAt (fun r : ℝ => -((mu1 + mu2) * (d - r))) (-((mu1 + mu2) * (-1))) r :=
        (((hasDerivAt_id r).const_sub d).const_mul (mu1 + mu2)).neg
      refine ((a.exp.mul_const (kInt mu1 muj d)).div_const (mu1 + mu2)).congr_deriv ?_
      field_simp
  rw [hv]
  apply div_le_div_of_nonneg_right _ hm.le
  have := kInt_nonneg (a := mu1) hj hd
  have := Real.exp_pos (-((mu1 + mu2) * d))
  nlinarith

theorem layerIntegral_pos {mu1 mu2 muj d : ℝ} (h1 : 0 < mu1) (hj : 0 < muj) (hd : 0 < d) :
    0 < layerIntegral mu1 mu2 muj d := by
  have kpos : ∀ r, 0 < r → 0 < kInt mu1 muj r := by
    intro r hr
    apply intervalIntegral.intervalIntegral_pos_of_pos_on (kInt_integrable h1.ne' hj (by positivity) hr.le) _ hr
    intro t ht
    apply mul_pos (Real.exp_pos _)
    refine lt_of_lt_of_le ?_ (trueE1_bounds (mul_pos hj ht.1)).1
    have := mul_pos hj ht.1
    positivity
  rw [layerIntegral_single]
  have hc := kInt_continuous h1.ne' hj (by positivity : muj + mu1 ≠ 0) hd.le
  have hexp : Continuous (fun r : ℝ => Real.exp (-((mu1 + mu2) * (d - r)))) := by fun_prop
  have hI : IntervalIntegrable (fun r => Real.exp (-((mu1 + mu2) * (d - r))) * kInt mu1 muj r) volume 0 d := by
    apply ContinuousOn.intervalIntegrable
    rw [uIcc_of_le hd.le]
    exact hexp.continuousOn.mul hc
  apply intervalIntegral.intervalIntegral_pos_of_pos_on hI _ hd
  intro r hr
  exact mul_pos (Real.exp_pos _) (kpos r hr.1)

theorem layerIntegral_ge {mu1 mu2 muj d : ℝ} (h1 : 0 < mu1) (h2 : 0 < mu2) (hj : 0 < muj) (hd : 0 ≤ d) :
    kInt mu1 muj (d / 2) * (1 - Real.exp (-((mu1 + mu2) * (d / 2)))) / (mu1 + mu2) ≤ layerIntegral mu1 mu2 muj d := by
  have hm : 0 < mu1 + mu2 := by linarith
  rw [layerIntegral_single]
  have hc := kInt_continuous h1.ne' hj (by positivity : muj + mu1 ≠ 0) hd
  have hexp : Continuous (fun r : ℝ => Real.exp (-((mu1 + mu2) * (d - r)))) := by fun_prop
  have hI : ∀ a b : ℝ, 0 ≤ a → a ≤ b → b ≤ d →
      IntervalIntegrable (fun r => Real.exp (-((mu1 + mu2) * (d - r))) * kInt mu1 muj r) volume a b := by
    intro a b ha hab hb
    apply ContinuousOn.intervalIntegrable
    rw [uIcc_of_le hab]
    exact (hexp.continuousOn.mul hc).mono (Icc_subset_Icc ha hb)
  have hhalf : 0 ≤ d / 2 := by linarith
  rw [← intervalIntegral.integral_add_adjacent_intervals (hI 0 (d / 2) le_rfl hhalf (by linarith))
    (hI (d / 2) d hhalf (by linarith) le_rfl)]
  have p1 : 0 ≤ ∫ r in (0 : ℝ)..(d / 2), Real.exp (-((mu1 + mu2) * (d - r))) * kInt mu1 muj r := by
    apply intervalIntegral.integral_nonneg hhalf
    intro r hr
    exact mul_nonneg (Real.exp_pos _).le (kInt_nonneg hj hr.1)
  have hJ : IntervalIntegrable (fun r => Real.exp (-((mu1 + mu2) * (d - r))) * kInt mu1 muj (d / 2)) volume (d / 2) d :=
    (hexp.mul continuous_const).intervalIntegrable _ d
  have hle := intervalIntegral.integral_mono_on (by linarith : d / 2 ≤ d) hJ (hI (d / 2) d hhalf (by linarith) le_rfl) (by
    intro r hr
    exact mul_le_mul_of_nonneg_left (kInt_mono h1.ne' hj (by positivity) hhalf hr.1) (Real.exp_pos _).le)
  have hv : (∫ r in (d / 2)..d, Real.exp (-((mu1 + mu2) * (d - r))) * kInt mu1 muj (d / 2))
      = kInt mu1 muj (d / 2) * (1 - Real.exp (-((mu1 + mu2) * (d / 2)))) / (mu1 + mu2) := by
    rw [intervalIntegral.integral_eq_sub_of_hasDerivAt
      (f := fun r => Real.exp (-((mu1 + mu2) * (d - r))) * kInt mu1 muj (d / 2) / (mu1 + mu2)) _ hJ]
    · have : d - d / 2 = d / 2 := by ring
      simp [this]
      ring
    · intro r _
      have a : HasDerivAt (fun r : ℝ => -((mu1 + mu2) * (d - r))) (-((mu1 + mu2) * (-1))) r :=
        (((hasDerivAt_id r).const_sub d).const_mul (mu1 + mu2)).neg
      refine ((a.exp.mul_const (kInt mu1 muj (d / 2))).div_const (mu1 + mu2)).congr_deriv ?_
      field_simp
  rw [hv] at hle
  linarith

/-- **C136** (partial) The value returned for a thick target is the limit of the integral for an infinite thickness.
Missing: it is returned for finite thicknesses for which it is far away, see `C136_thick_violated`. -/
theorem C136_thick_limit_partial {mu1 mu2 muj : ℝ} (h1 : 0 < mu1) (h2 : 0 < mu2) (hmj : 0 < muj)
    {density thickness : ℝ} (h : 10 < (mu1 + mu2) * (thickness * density)) :
    ∃ v, deBoerL0 mu1 mu2 muj density thickness = .ok v ∧
      Tendsto (fun d => ∫ x in (0 : ℝ)..d, ∫ y in x..d,
        Real.exp (-(mu2 * x) - mu1 * y) * ∫ t in Set.Ioi (muj * (y - x)), Real.exp (-t) / t) atTop (𝓝 v) := by
  have hm : 0 < mu1 + mu2 := by linarith
  refine ⟨(muj / mu1) * Real.log (1 + mu1 / muj) / ((mu1 + mu2) * muj), ?_, ?_⟩
  · unfold deBoerL0
    rw [if_neg (by push Not; exact ⟨h1, h2, hmj⟩)]
    simp only
    rw [if_pos h]
  · change Tendsto (fun d => layerIntegral mu1 mu2 muj d) atTop _
    have hexp : ∀ c : ℝ, 0 < c → Tendsto (fun d : ℝ => Real.exp (-(c * d))) atTop (𝓝 0) := fun c hc =>
      Real.tendsto_exp_neg_atTop_nhds_zero.comp (tendsto_id.const_mul_atTop hc)
    have hE : ∀ c : ℝ, 0 < c → Tendsto (fun d : ℝ => trueE1 (c * d)) atTop (𝓝 0) := by
      intro c hc
      refine squeeze_zero' ?_ ?_ (hexp c hc)
      · filter_upwards [eventually_gt_atTop (0 : ℝ)] with d hd
        exact trueE1_nonneg _ (mul_pos hc hd)
      · filter_upwards [eventually_gt_atTop (1 / c)] with d hd
        have hd1 : 1 < c * d := by rw [div_lt_iff₀ hc] at hd; linarith
        refine le_trans (trueE1_bounds (by linarith)).2 ?_
        have : 1 / (c * d) ≤ 1 := by rw [div_le_one (by linarith)]; linarith
        have := mul_le_mul_of_nonneg_left this (Real.exp_pos (-(c * d))).le
        linarith
    have hk : Tendsto (fun d : ℝ => kInt mu1 muj d) atTop (𝓝 (Real.log (1 + mu1 / muj) / mu1)) := by
      have t1 : Tendsto (fun d : ℝ => (Real.log (1 + mu1 / muj) + trueE1 ((muj + mu1) * d)
          - Real.exp (-(mu1 * d)) * trueE1 (muj * d)) / mu1) atTop (𝓝 ((Real.log (1 + mu1 / muj) + 0 - 0 * 0) / mu1)) :=
        ((tendsto_const_nhds.add (hE _ (by linarith))).sub ((hexp mu1 h1).mul (hE muj hmj))).div_const mu1
      rw [add_zero, mul_zero, sub_zero] at t1
      refine t1.congr' ?_
      filter_upwards [eventually_gt_atTop (0 : ℝ)] with d hd
      rw [kInt_eq h1.ne' hmj (by positivity) hd]
      unfold kPrim
      rw [pvE1_pos (by positivity)]
    have hhalf : Tendsto (fun d : ℝ => d / 2) atTop atTop := tendsto_id.atTop_div_const (by norm_num)
    have e : Real.log (1 + mu1 / muj) / mu1 / (mu1 + mu2)
        = (muj / mu1) * Real.log (1 + mu1 / muj) / ((mu1 + mu2) * muj) := by
      field_simp
    have lo : Tendsto (fun d : ℝ => kInt mu1 muj (d / 2) * (1 - Real.exp (-((mu1 + mu2) * (d / 2)))) / (mu1 + mu2)) atTop
        (𝓝 ((muj / mu1) * Real.log (1 + mu1 / muj) / ((mu1 + mu2) * muj))) := by
      have := ((hk.comp hhalf).mul (((hexp _ hm).comp hhalf).const_sub 1)).div_const (mu1 + mu2)
      rw [sub_zero, mul_one, e] at this
      exact this
    have hi : Tendsto (fun d : ℝ => kInt mu1 muj d / (mu1 + mu2)) atTop
        (𝓝 ((muj / mu1) * Real.log (1 + mu1 / muj) / ((mu1 + mu2) * muj))) := by
      have := hk.div_const (mu1 + mu2)
      rw [e] at this
      exact this
    refine tendsto_of_tendsto_of_tendsto_of_le_of_le' lo hi ?_ ?_
    · filter_upwards [eventually_ge_atTop (0 : ℝ)] with d hd
      exact layerIntegral_ge h1 h2 hmj hd
    · filter_upwards [eventually_ge_atTop (0 : ℝ)] with d hd
      exact layerIntegral_le h1 h2 hmj hd

/-- **C136** (violation) The test for a thick target looks at mu1 + mu2 only. With mu1 = muj = 0.001 and mu2 = 10 in a
layer of 1 g/cm2, which is transparent for the intermediate line, the value returned is more than 80 times the
integral. -/
theorem C136_thick_violated : ∃ v, deBoerL0 0.001 10 0.001 1 1 = .ok v ∧
    80 * (∫ x in (0 : ℝ)..1, ∫ y in x..1,
      Real.exp (-(10 * x) - 0.001 * y) * ∫ t in Set.Ioi (0.001 * (y - x)), Real.exp (-t) / t) < v := by
  refine ⟨(0.001 / 0.001) * Real.log (1 + 0.001 / 0.001) / ((0.001 + 10) * 0.001), ?_, ?_⟩
  · unfold deBoerL0
    rw [if_neg (by norm_num)]
    simp only
    rw [if_pos (by norm_num)]
  · change 80 * layerIntegral 0.001 10 0.001 1 < _
    have hb := layerIntegral_le (mu1 := 0.001) (mu2 := 10) (muj := 0.001) (d := 1) (by norm_num) (by norm_num)
      (by norm_num) (by norm_num)
    rw [kInt_eq (by norm_num) (by norm_num) (by norm_num) one_pos] at hb
    have hl2 := Real.log_two_gt_d9
    have hk : kPrim 0.001 0.001 1 ≤ 8.5 := by
      unfold kPrim
      have e1 : (1 : ℝ) + 0.001 / 0.001 = 2 := by norm_num
      have e2 : (0.001 + 0.001 : ℝ) * 1 = 0.002 := by norm_num
      have e3 : (0.001 : ℝ) * 1 = 0.001 := by norm_num
      rw [e1, e2, e3, div_le_iff₀ (by norm_num), pvE1_pos (by norm_num)]
      have a1 := (as53_accuracy (x := 0.002) (by norm_num) (by norm_num)).1
      have a2 := (as53_accuracy (x := 0.001) (by norm_num) (by norm_num)).1
      have b1 := (abs_le.1 a1).1
      have b2 := (abs_le.1 a2).2
      have v1 : as53 0.002 ≤ -0.57521 := by unfold as53; norm_num
      have v2 : -0.57622 ≤ as53 0.001 := by unfold as53; norm_num
      have hlog : Real.log 0.002 = Real.log 2 + Real.log 0.001 := by
        rw [← Real.log_mul (by norm_num) (by norm_num)]; norm_num
      have hlog1 : -7 ≤ Real.log 0.001 := by
        rw [Real.le_log_iff_exp_le (by norm_num), Real.exp_neg, inv_le_comm₀ (Real.exp_pos _) (by norm_num)]
        have := Real.exp_one_gt_d9
        have e : Real.exp 7 = Real.exp 1 ^ 7 := by rw [← Real.exp_nat_mul]; norm_num
        rw [e]
        have : (2.71 : ℝ) ^ 7 ≤ Real.exp 1 ^ 7 := pow_le_pow_left₀ (by norm_num) (by norm_num at this ⊢; linarith) 7
        refine le_trans ?_ this
        norm_num
      have hexp := Real.add_one_le_exp (-0.001 : ℝ)
      have hT : trueE1 0.001 ≤ 7 := by
        have := trueE1_le_log (x := 0.001) (by norm_num) (by norm_num)
        have c := (abs_le.1 a2).1
        have v3 : as53 0.001 ≤ -0.5762 := by unfold as53; norm_num
        norm_num at b2 c v3 hlog1 ⊢
        linarith
      have hT0 := trueE1_nonneg 0.001 (by norm_num)
      rw [hlog] at b1
      have hm : (1 - 0.001) * trueE1 0.001 ≤ Real.exp (-0.001) * trueE1 0.001 :=
        mul_le_mul_of_nonneg_right (by linarith) hT0
      have c2 := (abs_le.1 a2).1
      norm_num at b1 b2 v1 v2 hm hT c2 ⊢
      linarith
    have h3 : layerIntegral 0.001 10 0.001 1 ≤ 8.5 / 10.001 := by
      refine le_trans hb ?_
      norm_num at hk ⊢
      linarith
    have e : (0.001 / 0.001 : ℝ) * Real.log (1 + 0.001 / 0.001) / ((0.001 + 10) * 0.001) = Real.log 2 / 0.010001 := by
      norm_num
    rw [e, lt_div_iff₀ (by norm_num)]
    norm_num at h3 hl2 ⊢
    linarith

/-- **C136** (violation) A thin target has no enhancement at all, although the integral is positive. -/
theorem C136_thin_violated {mu1 mu2 muj density thickness : ℝ} (h1 : 0 < mu1) (h2 : 0 < mu2) (hj : 0 < muj)
    (hd : 0 < thickness * density) (h : (mu1 + mu2) * (thickness * density) < 0.01) :
    deBoerL0 mu1 mu2 muj density thickness = .ok 0 ∧
    0 < ∫ x in (0 : ℝ)..(thickness * density), ∫ y in x..(thickness * density),
      Real.exp (-(mu2 * x) - mu1 * y) * ∫ t in Set.Ioi (muj * (y - x)), Real.exp (-t) / t := by
  constructor
  · unfold deBoerL0
    rw [if_neg (by push Not; exact ⟨h1, h2, hj⟩)]
    simp only
    rw [if_neg (by norm_num at h; linarith), if_pos h]
  · exact layerIntegral_pos h1 hj hd

/-- The hypotheses of the three theorems are met. -/
example : (10 : ℝ) < (1 + 2) * (2 * 2) ∧ (0 : ℝ) < 0.001 * 1 ∧ (1 + 2) * (0.001 * 1) < (0.01 : ℝ) := by norm_num

end MathFn
end Fisx
