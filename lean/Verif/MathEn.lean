import Verif.MathE1Small
import Mathlib.MeasureTheory.Integral.ExpDecay

/-!
# Accuracy of `Math::En` (C132) and of `Math::E1` at negative arguments (C133)
-/

set_option linter.unusedSectionVars false

namespace Fisx
namespace MathFn

open MeasureTheory Set Filter Topology

/-- The exponential integral of order n: the integral of exp(-x t)/t^n from 1 to infinity
(Abramowitz and Stegun 5.1.4). -/
noncomputable def trueEn (n : Nat) (x : ℝ) : ℝ := ∫ t in Set.Ioi (1 : ℝ), Real.exp (-(x * t)) / t ^ n

theorem trueEn_integrable {x : ℝ} (hx : 0 < x) (n : Nat) :
    IntegrableOn (fun t => Real.exp (-(x * t)) / t ^ n) (Ioi (1 : ℝ)) := by
  have h1 : IntegrableOn (fun t : ℝ => Real.exp (-x * t)) (Ioi 1) := exp_neg_integrableOn_Ioi 1 hx
  refine Integrable.mono' h1 ?_ ?_
  · apply Measurable.aestronglyMeasurable
    fun_prop
  · filter_upwards [ae_restrict_mem measurableSet_Ioi] with t ht
    have ht1 : 1 < t := ht
    have ht0 : 0 < t := by linarith
    rw [Real.norm_of_nonneg (by positivity), neg_mul]
    exact div_le_self (Real.exp_pos _).le (one_le_pow₀ ht1.le)

/-- The case of order 1 is the integral of exp(-t)/t from x on. -/
theorem trueEn_one {x : ℝ} (hx : 0 < x) : trueEn 1 x = trueE1 x := by
  unfold trueEn trueE1
  have h := integral_comp_mul_left_Ioi (fun t => Real.exp (-t) / t) 1 hx
  rw [mul_one, smul_eq_mul] at h
  have e : (∫ t in Ioi (1 : ℝ), Real.exp (-(x * t)) / t ^ 1) = x * ∫ t in Ioi (1 : ℝ), Real.exp (-(x * t)) / (x * t) := by
    rw [← integral_const_mul]
    apply setIntegral_congr_fun measurableSet_Ioi
    intro t ht
    have ht1 : (1 : ℝ) < t := ht
    have ht0 : t ≠ 0 := by linarith
    simp only [pow_one]
    field_simp
  rw [e, h, ← mul_assoc, mul_inv_cancel₀ hx.ne', one_mul]

/-- Abramowitz and Stegun 5.1.14. -/
theorem trueEn_succ {x : ℝ} (hx : 0 < x) (n : Nat) :
    ((n : ℝ) + 1) * trueEn (n + 2) x = Real.exp (-x) - x * trueEn (n + 1) x := by
  have hI1 := (trueEn_integrable hx (n + 1)).const_mul x
  have hI2 := (trueEn_integrable hx (n + 2)).const_mul ((n : ℝ) + 1)
  have hd : ∀ t ∈ Ici (1 : ℝ), HasDerivAt (fun t => -(Real.exp (-(x * t)) / t ^ (n + 1)))
      (x * (Real.exp (-(x * t)) / t ^ (n + 1)) + ((n : ℝ) + 1) * (Real.exp (-(x * t)) / t ^ (n + 2))) t := by
    intro t ht
    have ht1 : (1 : ℝ) ≤ t := ht
    have ht0 : t ≠ 0 := by linarith
    have h1 : HasDerivAt (fun t : ℝ => Real.exp (-(x * t))) (Real.exp (-(x * t)) * (-(x * 1))) t :=
      (((hasDerivAt_id t).const_mul x).neg).exp
    have h2 := hasDerivAt_pow (n + 1) t
    refine ((h1.div h2 (by positivity)).neg).congr_deriv ?_
    rw [Nat.add_sub_cancel]
    push_cast
    field_simp
    ring
  have hlim : Tendsto (fun t : ℝ => -(Real.exp (-(x * t)) / t ^ (n + 1))) atTop (𝓝 0) := by
    have h1 : Tendsto (fun t : ℝ => Real.exp (-(x * t))) atTop (𝓝 0) :=
      Real.tendsto_exp_neg_atTop_nhds_zero.comp (tendsto_id.const_mul_atTop hx)
    have h2 : Tendsto (fun t : ℝ => Real.exp (-(x * t)) / t ^ (n + 1)) atTop (𝓝 0) := by
      refine squeeze_zero' ?_ ?_ h1
      · filter_upwards [eventually_gt_atTop (1 : ℝ)] with t ht
        have : 0 < t := by linarith
        positivity
      · filter_upwards [eventually_gt_atTop (1 : ℝ)] with t ht
        exact div_le_self (Real.exp_pos _).le (one_le_pow₀ ht.le)
    simpa using h2.neg
  have h := integral_Ioi_of_hasDerivAt_of_tendsto' hd (hI1.add hI2) hlim
  rw [integral_add hI1 hI2, integral_const_mul, integral_const_mul] at h
  unfold trueEn
  simp only [mul_one, one_pow, div_one] at h
  linarith

theorem trueEn_nonneg (n : Nat) (x : ℝ) : 0 ≤ trueEn n x := by
  apply setIntegral_nonneg measurableSet_Ioi
  intro t ht
  have ht1 : (1 : ℝ) < t := ht
  have ht0 : 0 < t := by linarith
  positivity

theorem trueEn_antitone {x : ℝ} (hx : 0 < x) (n : Nat) : trueEn (n + 1) x ≤ trueEn n x := by
  apply setIntegral_mono_on (trueEn_integrable hx _) (trueEn_integrable hx _) measurableSet_Ioi
  intro t ht
  have ht1 : (1 : ℝ) < t := ht
  have ht0 : 0 < t := by linarith
  apply div_le_div_of_nonneg_left (Real.exp_pos _).le (by positivity)
  exact pow_le_pow_right₀ ht1.le (by omega)

/-! ## C132 -/

theorem enAux_error {x : ℝ} (h0 : 0 < x) (w : ℝ) (hw : E1 x = .ok w) (k : Nat) :
    ∃ v, enAux k x = .ok v ∧ v - trueEn (k + 1) x = (-x) ^ k / (k.factorial : ℝ) * (w - trueE1 x) := by
  induction k with
  | zero => exact ⟨w, hw, by simp [trueEn_one h0]⟩
  | succ k ih =>
    obtain ⟨v, hv, he⟩ := ih
    refine ⟨(Real.exp (-x) - x * v) / ((k : ℝ) + 1), ?_, ?_⟩
    · unfold enAux
      rw [if_neg h0.ne', hv]
      rfl
    · have hs := trueEn_succ h0 k
      have hk : (k : ℝ) + 1 ≠ 0 := by positivity
      have hf : (k.factorial : ℝ) ≠ 0 := by exact_mod_cast k.factorial_ne_zero
      have e : trueEn (k + 1 + 1) x = (Real.exp (-x) - x * trueEn (k + 1) x) / ((k : ℝ) + 1) := by
        rw [eq_div_iff hk]; linarith
      rw [e, Nat.factorial_succ, pow_succ]
      push_cast
      have hv' : v = trueEn (k + 1) x + (-x) ^ k / (k.factorial : ℝ) * (w - trueE1 x) := by linarith
      rw [hv']
      field_simp
      ring

/-- **C132** (partial) The error of E1 is multiplied by x^(n-1)/(n-1)! in E_n: the absolute error of E_n is at most
1.2e-6 times that, times the exponential integral E1(x). Missing: a bound relative to E_n(x), which fails, see
`C132_En_accurate_violated`. -/
theorem C132_En_error_partial {x : ℝ} (h0 : 0 < x) (h1 : x ≠ 1) (n : Nat) : ∃ v, En ((n : Int) + 1) x = .ok v ∧
    |v - ∫ t in Set.Ioi (1 : ℝ), Real.exp (-(x * t)) / t ^ (n + 1)| ≤
      x ^ n / (n.factorial : ℝ) * (1.2e-6 * ∫ t in Set.Ioi x, Real.exp (-t) / t) := by
  obtain ⟨w, hw, hb⟩ := C131_E1_accurate h0 h1
  obtain ⟨v, hv, he⟩ := enAux_error h0 w hw n
  refine ⟨v, ?_, ?_⟩
  · unfold En
    rw [if_neg (by omega)]
    rw [show ((n : Int) + 1 - 1).toNat = n by omega]
    exact hv
  · change |v - trueEn (n + 1) x| ≤ _
    rw [he, abs_mul, abs_div, abs_pow, abs_neg, abs_of_pos h0, abs_of_nonneg (by positivity : (0 : ℝ) ≤ (n.factorial : ℝ))]
    exact mul_le_mul_of_nonneg_left hb (by positivity)

/-- The continued fraction at 100 stops at the first or second iteration, at least 2.8e-13 below the limit. -/
theorem cf_100 : ∃ d, deBoerCF 100 = .ok d ∧ d + 2.8e-13 ≤ Real.exp 100 * trueE1 100 := by
  have hx0 : (0 : ℝ) < 100 := by norm_num
  refine ⟨_, if_neg (by norm_num), ?_⟩
  have h := loop_result hx0 1.0e-7 99 0
  simp only [lentzState, Nat.zero_add] at h
  have h2 : cfDelta 100 2 < 1.0e-7 := by
    norm_num [cfDelta, cfA, cfB, Nat.factorial]
  rw [show 100 - 1 = 99 from rfl, ← cfJ_eq]
  have hlim := (convergent_error hx0 hx0 3 (cfA_growth0 hx0 3)).1
  have hlim2 : cfB 100 4 / cfA 100 4 ≤ cfJ 100 0 := by linarith
  refine le_trans ?_ hlim2
  rcases h with ⟨_, hf⟩ | ⟨k, hk, e, _, hf⟩
  · exact absurd (hf 1 (by omega)) (not_le.2 h2)
  · have hk1 : k ≤ 1 := by
      by_contra hc
      exact absurd (hf 1 (by omega)) (not_le.2 h2)
    rw [e]
    interval_cases k
    · norm_num [cfA, cfB]
    · norm_num [cfA, cfB]

/-- **C132** (violation) The recurrence amplifies the error of E1: E_9(100), a positive number, is returned as a
negative one. -/
theorem C132_En_accurate_violated : ∃ v, En 9 100 = .ok v ∧ v < 0 ∧
    0 ≤ ∫ t in Set.Ioi (1 : ℝ), Real.exp (-(100 * t)) / t ^ 9 := by
  have h0 : (0 : ℝ) < 100 := by norm_num
  obtain ⟨d, hd, hb⟩ := cf_100
  have hw : E1 100 = .ok (Real.exp (-100) * d) := by
    unfold E1
    rw [if_neg (by norm_num), if_neg (by norm_num), if_neg (by norm_num), hd]
    rfl
  obtain ⟨v, hv, he⟩ := enAux_error h0 _ hw 8
  refine ⟨v, ?_, ?_, trueEn_nonneg 9 100⟩
  · unfold En
    rw [if_neg (by norm_num)]
    exact hv
  · have hT : trueE1 100 = Real.exp (-100) * (Real.exp 100 * trueE1 100) := by
      rw [← mul_assoc, ← Real.exp_add]; simp
    have hle : trueEn 9 100 ≤ Real.exp (-100) * (1 / 100) := by
      refine le_trans ?_ (trueE1_bounds h0).2
      rw [← trueEn_one h0]
      exact antitone_nat_of_succ_le (f := fun n => trueEn n 100) (trueEn_antitone h0) (by norm_num)
    have hE := Real.exp_pos (-100)
    have hdiff : Real.exp (-100) * d - trueE1 100 ≤ - (Real.exp (-100) * 2.8e-13) := by
      rw [hT, ← mul_sub, ← mul_neg]
      apply mul_le_mul_of_nonneg_left _ hE.le
      linarith
    have hc : (-100 : ℝ) ^ 8 / ((Nat.factorial 8 : Nat) : ℝ) = 10 ^ 16 / 40320 := by
      norm_num [Nat.factorial]
    rw [hc] at he
    have hm := mul_le_mul_of_nonneg_left hdiff (show (0 : ℝ) ≤ 10 ^ 16 / 40320 by positivity)
    have : v ≤ Real.exp (-100) * (1 / 100 - 10 ^ 16 / 40320 * 2.8e-13) := by
      rw [mul_sub]
      linarith
    refine lt_of_le_of_lt this ?_
    apply mul_neg_of_pos_of_neg hE
    norm_num

/-- The hypotheses of the partial theorem are met. -/
example : ∃ v, En 3 (1 / 2) = .ok v ∧
    |v - ∫ t in Set.Ioi (1 : ℝ), Real.exp (-((1 / 2) * t)) / t ^ 3| ≤
      (1 / 2) ^ 2 / ((Nat.factorial 2 : Nat) : ℝ) * (1.2e-6 * ∫ t in Set.Ioi (1 / 2 : ℝ), Real.exp (-t) / t) :=
  C132_En_error_partial (by norm_num) (by norm_num) 2

/-! ## C133: negative arguments -/

/-- The sum of the ten terms, without the constant and the logarithm. -/
noncomputable def e1Terms (y : ℝ) : ℝ :=
  y + y ^ 2 / 4 + y ^ 3 / 18 + y ^ 4 / 96 + y ^ 5 / 600 + y ^ 6 / 4320 + y ^ 7 / 35280 + y ^ 8 / 322560
    + y ^ 9 / 3265920 + y ^ 10 / 36288000

/-- Its derivative. -/
noncomputable def e1Terms' (y : ℝ) : ℝ :=
  1 + y / 2 + y ^ 2 / 6 + y ^ 3 / 24 + y ^ 4 / 120 + y ^ 5 / 720 + y ^ 6 / 5040 + y ^ 7 / 40320
    + y ^ 8 / 362880 + y ^ 9 / 3628800

theorem e1Terms_hasDeriv (x : ℝ) : HasDerivAt e1Terms (e1Terms' x) x := by
  have h : ∀ (n : Nat) (c : ℝ), HasDerivAt (fun x : ℝ => x ^ n / c) ((n : ℝ) * x ^ (n - 1) / c) x := by
    intro n c
    exact (hasDerivAt_pow n x).div_const c
  have := ((((((((((hasDerivAt_id x).add (h 2 4)).add (h 3 18)).add (h 4 96)).add (h 5 600)).add (h 6 4320)).add
    (h 7 35280)).add (h 8 322560)).add (h 9 3265920)).add (h 10 36288000))
  refine this.congr_deriv ?_
  unfold e1Terms'
  norm_num
  ring

theorem E1_negative {x : ℝ} (hx : x < 0) :
    E1 x = .ok (-0.577215664901532860 - e1Terms (-x) - Real.log (-x)) := by
  unfold E1
  rw [if_neg hx.ne, if_pos hx]
  congr 1
  unfold e1Series e1Terms
  simp only [List.range', List.map, List.sum_cons, List.sum_nil, Nat.factorial]
  norm_num
  ring

theorem e1Terms_tail {s : ℝ} (hs : 0 < s) :
    s ^ 10 / 39916800 ≤ Real.exp s / s - (e1Terms' s + 1 / s) ∧
    (s ≤ 1 → Real.exp s / s - (e1Terms' s + 1 / s) ≤ 0.000000028) := by
  have e : Real.exp s / s - (e1Terms' s + 1 / s) = (Real.exp s - (1 + s * e1Terms' s)) / s := by
    field_simp
    ring
  rw [e]
  constructor
  · rw [le_div_iff₀ hs]
    have h := Real.sum_le_exp_of_nonneg hs.le 12
    simp only [Finset.sum_range_succ, Finset.sum_range_zero, Nat.factorial] at h
    norm_num at h
    unfold e1Terms'
    linarith
  · intro h1
    rw [div_le_iff₀ hs]
    have h := Real.exp_bound' hs.le h1 (n := 11) (by norm_num)
    simp only [Finset.sum_range_succ, Finset.sum_range_zero, Nat.factorial] at h
    norm_num at h
    have ht : s ^ 11 ≤ s := by
      calc s ^ 11 ≤ s ^ 1 := pow_le_pow_of_le_one hs.le h1 (by norm_num)
        _ = s := pow_one s
    unfold e1Terms'
    linarith

/-- The difference between two values of E1 at negative arguments exceeds the integral of exp(-t)/t between them by
the integral of the neglected terms. -/
theorem E1_negative_difference {a b : ℝ} (hab : a ≤ b) (hb : b < 0) :
    ∃ v w, E1 a = .ok v ∧ E1 b = .ok w ∧
      (v - w) - (∫ t in a..b, Real.exp (-t) / t) =
        ∫ t in a..b, (Real.exp (-t) / (-t) - (e1Terms' (-t) + 1 / (-t))) := by
  have hcont : ContinuousOn (fun t : ℝ => Real.exp (-t) / t) (uIcc a b) := by
    rw [uIcc_of_le hab]
    intro t ht
    have : t ≠ 0 := (lt_of_le_of_lt ht.2 hb).ne
    exact ((Real.continuous_exp.comp continuous_neg).continuousAt.div continuousAt_id this).continuousWithinAt
  have hint : IntervalIntegrable (fun t : ℝ => Real.exp (-t) / t) volume a b := hcont.intervalIntegrable
  have hcont2 : ContinuousOn (fun t : ℝ => e1Terms' (-t) + 1 / (-t)) (uIcc a b) := by
    rw [uIcc_of_le hab]
    intro t ht
    have : -t ≠ 0 := neg_ne_zero.2 (lt_of_le_of_lt ht.2 hb).ne
    have hc : Continuous (fun t => e1Terms' (-t)) := by unfold e1Terms'; fun_prop
    exact (hc.continuousAt.add (continuousAt_const.div continuous_neg.continuousAt this)).continuousWithinAt
  have hint2 : IntervalIntegrable (fun t : ℝ => e1Terms' (-t) + 1 / (-t)) volume a b := hcont2.intervalIntegrable
  have hval : (∫ t in a..b, (e1Terms' (-t) + 1 / (-t))) =
      (- e1Terms (-b) - Real.log (-b)) - (- e1Terms (-a) - Real.log (-a)) := by
    refine intervalIntegral.integral_eq_sub_of_hasDerivAt (f := fun t => - e1Terms (-t) - Real.log (-t)) ?_ hint2
    intro t ht
    rw [uIcc_of_le hab] at ht
    have : -t ≠ 0 := neg_ne_zero.2 (lt_of_le_of_lt ht.2 hb).ne
    have h1 := ((e1Terms_hasDeriv (-t)).comp t (hasDerivAt_neg t)).neg
    have h2 := (hasDerivAt_neg t).log this
    refine (h1.sub h2).congr_deriv ?_
    ring
  refine ⟨_, _, E1_negative (lt_of_le_of_lt hab hb), E1_negative hb, ?_⟩
  have hneg : (fun t : ℝ => Real.exp (-t) / (-t)) = fun t : ℝ => - (Real.exp (-t) / t) := by
    funext t
    rw [div_neg]
  have hint3 : IntervalIntegrable (fun t : ℝ => Real.exp (-t) / (-t)) volume a b := by
    rw [hneg]; exact hint.neg
  rw [intervalIntegral.integral_sub hint3 hint2, hval, hneg, intervalIntegral.integral_neg]
  ring

/-- **C133** (partial) Down to -1, E1 decreases as the integral of exp(-t)/t, up to 2.8e-8 times the length of the
interval. Missing: arguments below -1, see `C133_negative_violated`. -/
theorem C133_negative_partial {a b : ℝ} (ha : -1 ≤ a) (hab : a ≤ b) (hb : b < 0) :
    ∃ v w, E1 a = .ok v ∧ E1 b = .ok w ∧
      |(v - w) - (∫ t in a..b, Real.exp (-t) / t)| ≤ 2.8e-8 * (b - a) := by
  obtain ⟨v, w, hv, hw, he⟩ := E1_negative_difference hab hb
  refine ⟨v, w, hv, hw, ?_⟩
  rw [he]
  have h := intervalIntegral.norm_integral_le_of_norm_le_const (a := a) (b := b) (C := 2.8e-8)
    (f := fun t => Real.exp (-t) / (-t) - (e1Terms' (-t) + 1 / (-t))) (by
      intro t ht
      rw [uIoc_of_le hab] at ht
      have ht0 : 0 < -t := by linarith [ht.2]
      obtain ⟨h1, h2⟩ := e1Terms_tail ht0
      rw [Real.norm_eq_abs, abs_of_nonneg (le_trans (by positivity) h1)]
      have := h2 (by linarith [ht.1])
      norm_num at this ⊢
      linarith)
  rw [abs_of_nonneg (by linarith : (0 : ℝ) ≤ b - a)] at h
  exact h

/-- **C133** (violation) For any two negative arguments, the difference of the values of E1 is off by at least
(|a|^11 - |b|^11) / (11 * 11!). -/
theorem C133_negative_error_violated {a b : ℝ} (hab : a ≤ b) (hb : b < 0) :
    ∃ v w, E1 a = .ok v ∧ E1 b = .ok w ∧
      ((-a) ^ 11 - (-b) ^ 11) / 439084800 ≤ (v - w) - (∫ t in a..b, Real.exp (-t) / t) := by
  obtain ⟨v, w, hv, hw, he⟩ := E1_negative_difference hab hb
  refine ⟨v, w, hv, hw, ?_⟩
  rw [he]
  have hcp : Continuous (fun t : ℝ => (-t) ^ 10 / 39916800) := by fun_prop
  have hlow : (∫ t in a..b, (-t) ^ 10 / 39916800) = ((-a) ^ 11 - (-b) ^ 11) / 439084800 := by
    rw [intervalIntegral.integral_eq_sub_of_hasDerivAt (f := fun t => - ((-t) ^ 11 / 439084800)) _
      (hcp.intervalIntegrable a b)]
    · ring
    · intro t _
      have h := (((hasDerivAt_neg t).pow 11).div_const 439084800).neg
      refine h.congr_deriv ?_
      norm_num
      ring
  rw [← hlow]
  apply intervalIntegral.integral_mono_on hab (hcp.intervalIntegrable a b)
  · apply ContinuousOn.intervalIntegrable
    rw [uIcc_of_le hab]
    intro t ht
    have : -t ≠ 0 := neg_ne_zero.2 (lt_of_le_of_lt ht.2 hb).ne
    have hc : Continuous (fun t => e1Terms' (-t)) := by unfold e1Terms'; fun_prop
    exact (((Real.continuous_exp.comp continuous_neg).continuousAt.div continuous_neg.continuousAt this).sub
      (hc.continuousAt.add (continuousAt_const.div continuous_neg.continuousAt this))).continuousWithinAt
  · intro t ht
    exact (e1Terms_tail (show 0 < -t by linarith [ht.2])).1

/-- **C133** (violation) E1(-10) - E1(-1) differs from the integral by more than 227: the ten terms of the series do
not suffice at arguments below -1. -/
theorem C133_negative_violated : ∃ v w, E1 (-10) = .ok v ∧ E1 (-1) = .ok w ∧
    227 < |(v - w) - (∫ t in (-10 : ℝ)..(-1), Real.exp (-t) / t)| := by
  obtain ⟨v, w, hv, hw, h⟩ := C133_negative_error_violated (a := -10) (b := -1) (by norm_num) (by norm_num)
  refine ⟨v, w, hv, hw, lt_of_lt_of_le (lt_of_lt_of_le ?_ h) (le_abs_self _)⟩
  norm_num

/-- The hypotheses of the partial theorem are met. -/
example : ∃ v w, E1 (-0.75) = .ok v ∧ E1 (-0.5) = .ok w ∧
    |(v - w) - (∫ t in (-0.75 : ℝ)..(-0.5), Real.exp (-t) / t)| ≤ 2.8e-8 * (-0.5 - -0.75) :=
  C133_negative_partial (by norm_num) (by norm_num) (by norm_num)

/-! ## C134: the rational approximation -/

/-- **C134** (partial) `AS_5_1_56` rejects the arguments below 1 and returns a number between 0 and 1 otherwise, as
x exp(x) E1(x) is. Missing: it is not an approximation of that function, see `C134_rational_violated`. -/
theorem C134_rational_partial (x : ℝ) : (x < 1 → AS_5_1_56 x = .throw .invalidArgument) ∧
    (1 ≤ x → ∃ v, AS_5_1_56 x = .ok v ∧ 0 < v ∧ v < 1 ∧
      0 < x * (Real.exp x * ∫ t in Set.Ioi x, Real.exp (-t) / t) ∧
      x * (Real.exp x * ∫ t in Set.Ioi x, Real.exp (-t) / t) ≤ 1) := by
  constructor
  · intro h
    unfold AS_5_1_56
    rw [if_pos h]
  · intro h
    have hx : 0 < x := by linarith
    refine ⟨_, by unfold AS_5_1_56; rw [if_neg (not_lt.2 h)], ?_, ?_, ?_, ?_⟩
    · positivity
    · rw [div_lt_one (by positivity)]
      have h2 : 0 < x * x := mul_pos hx hx
      have h4 : 0 < x * x * x * x := by positivity
      nlinarith
    · have := (trueE1_bounds hx).1
      have h2 : 0 < trueE1 x := lt_of_lt_of_le (by positivity) this
      change 0 < x * (Real.exp x * trueE1 x)
      positivity
    · have := mul_le_mul_of_nonneg_left (trueE1_bounds hx).2 (Real.exp_pos x).le
      rw [← mul_assoc, ← Real.exp_add] at this
      simp only [add_neg_cancel, Real.exp_zero, one_mul] at this
      change x * (Real.exp x * trueE1 x) ≤ 1
      calc x * (Real.exp x * trueE1 x) ≤ x * (1 / x) := mul_le_mul_of_nonneg_left this hx.le
        _ = 1 := by field_simp

/-- **C134** (violation) The coefficients are used in the wrong order and the leading 1 is missing: at 100 the value is
below 0.08, while x exp(x) E1(x) is above 0.99. -/
theorem C134_rational_violated : ∃ v, AS_5_1_56 100 = .ok v ∧ v < 0.08 ∧
    0.99 < 100 * (Real.exp 100 * ∫ t in Set.Ioi (100 : ℝ), Real.exp (-t) / t) := by
  refine ⟨_, by unfold AS_5_1_56; rw [if_neg (by norm_num)], by norm_num, ?_⟩
  have := mul_le_mul_of_nonneg_left (trueE1_bounds (x := 100) (by norm_num)).1 (Real.exp_pos 100).le
  rw [← mul_assoc, ← Real.exp_add] at this
  simp only [add_neg_cancel, Real.exp_zero, one_mul] at this
  change 0.99 < 100 * (Real.exp 100 * trueE1 100)
  norm_num at this ⊢
  linarith

end MathFn
end Fisx
