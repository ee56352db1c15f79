import Verif.MathE1
import Mathlib.Analysis.SpecialFunctions.Integrals.Basic

/-!
# Accuracy of `Math::E1` below 1 (C131): Abramowitz and Stegun 5.1.53

The integral is compared with its Taylor polynomial; the value at 1 comes from the continued fraction.
-/

set_option linter.unusedSectionVars false

namespace Fisx
namespace MathFn

open MeasureTheory Set Filter Topology

/-- Taylor polynomial of E1(x) + log(x) + gamma. -/
noncomputable def e1Poly (x : ℝ) : ℝ :=
  x - x ^ 2 / 4 + x ^ 3 / 18 - x ^ 4 / 96 + x ^ 5 / 600 - x ^ 6 / 4320 + x ^ 7 / 35280 - x ^ 8 / 322560
    + x ^ 9 / 3265920 - x ^ 10 / 36288000 + x ^ 11 / 439084800

/-- Its derivative. -/
noncomputable def e1Poly' (x : ℝ) : ℝ :=
  1 - x / 2 + x ^ 2 / 6 - x ^ 3 / 24 + x ^ 4 / 120 - x ^ 5 / 720 + x ^ 6 / 5040 - x ^ 7 / 40320
    + x ^ 8 / 362880 - x ^ 9 / 3628800 + x ^ 10 / 39916800

theorem e1Poly_hasDeriv (x : ℝ) : HasDerivAt e1Poly (e1Poly' x) x := by
  have h : ∀ (n : Nat) (c : ℝ), HasDerivAt (fun x : ℝ => x ^ n / c) ((n : ℝ) * x ^ (n - 1) / c) x := by
    intro n c
    exact (hasDerivAt_pow n x).div_const c
  have := (((((((((((hasDerivAt_id x).sub (h 2 4)).add (h 3 18)).sub (h 4 96)).add (h 5 600)).sub (h 6 4320)).add
    (h 7 35280)).sub (h 8 322560)).add (h 9 3265920)).sub (h 10 36288000)).add (h 11 439084800))
  refine this.congr_deriv ?_
  unfold e1Poly'
  norm_num
  ring

theorem as53_piece0 {x : ℝ} (h0 : 0 ≤ x) (h1 : x ≤ 1 / 8) :
    |as53 x + 0.5772156649 - e1Poly x| ≤ 0.000000245 := by
  have key1 : ∀ u v : ℝ, 0 ≤ u → 0 ≤ v → 0 ≤
      (167705051136 / 9765625) * u ^ 0 * v ^ 12 + (1335499948032 / 9765625) * u ^ 1 * v ^ 11
        + (4559917285376 / 9765625) * u ^ 2 * v ^ 10 + (15435600756736 / 17578125) * u ^ 3 * v ^ 9
        + (5659679260672 / 5859375) * u ^ 4 * v ^ 8 + (6035822682112 / 9765625) * u ^ 5 * v ^ 7
        + (78837299888128 / 263671875) * u ^ 6 * v ^ 6 + (1513676505659392 / 4306640625) * u ^ 7 * v ^ 5
        + (434971621670044 / 861328125) * u ^ 8 * v ^ 4 + (29887543969677524 / 69767578125) * u ^ 9 * v ^ 3
        + (192354726315588881 / 930234375000) * u ^ 10 * v ^ 2
        + (24305129894797586003 / 450233437500000) * u ^ 11 * v ^ 1
        + (8072362170820034957 / 1350700312500000) * u ^ 12 * v ^ 0 := fun u v hu hv => by positivity
  have key2 : ∀ u v : ℝ, 0 ≤ u → 0 ≤ v → 0 ≤
      (161128382464 / 9765625) * u ^ 0 * v ^ 12 + (2610501255168 / 9765625) * u ^ 1 * v ^ 11
        + (17143089332224 / 9765625) * u ^ 2 * v ^ 10 + (114782438948864 / 17578125) * u ^ 3 * v ^ 9
        + (92003850518528 / 5859375) * u ^ 4 * v ^ 8 + (254400256729088 / 9765625) * u ^ 5 * v ^ 7
        + (8124899201564672 / 263671875) * u ^ 6 * v ^ 6 + (113338634514679808 / 4306640625) * u ^ 7 * v ^ 5
        + (13921567255872356 / 861328125) * u ^ 8 * v ^ 4 + (486947855621848876 / 69767578125) * u ^ 9 * v ^ 3
        + (1874986872050516719 / 930234375000) * u ^ 10 * v ^ 2
        + (157620930761419706797 / 450233437500000) * u ^ 11 * v ^ 1
        + (37409152993234288243 / 1350700312500000) * u ^ 12 * v ^ 0 := fun u v hu hv => by positivity
  have k1 := key1 (x - 0) (1 / 8 - x) (by linarith) (by linarith)
  have k2 := key2 (x - 0) (1 / 8 - x) (by linarith) (by linarith)
  rw [abs_le]
  unfold as53 e1Poly
  constructor
  · refine le_of_sub_nonneg (le_of_le_of_eq k1 ?_)
    ring
  · refine le_of_sub_nonneg (le_of_le_of_eq k2 ?_)
    ring

theorem as53_piece1 {x : ℝ} (h0 : 1 / 8 ≤ x) (h1 : x ≤ 1 / 4) :
    |as53 x + 0.5772156649 - e1Poly x| ≤ 0.000000245 := by
  have key1 : ∀ u v : ℝ, 0 ≤ u → 0 ≤ v → 0 ≤
      (8072362170820034957 / 1350700312500000) * u ^ 0 * v ^ 12
        + (40273767471762693653 / 450233437500000) * u ^ 1 * v ^ 11
        + (1110556615220500837 / 1860468750000) * u ^ 2 * v ^ 10
        + (14424227686493631827 / 6139546875000) * u ^ 3 * v ^ 9
        + (692383758840355123 / 113695312500) * u ^ 4 * v ^ 8
        + (4683410047681704833 / 426357421875) * u ^ 5 * v ^ 7
        + (41120573250349558 / 2900390625) * u ^ 6 * v ^ 6
        + (5638293152934480508 / 426357421875) * u ^ 7 * v ^ 5
        + (251994508055401312 / 28423828125) * u ^ 8 * v ^ 4
        + (3202641510762743144 / 767443359375) * u ^ 9 * v ^ 3
        + (1676957782169653552 / 1279072265625) * u ^ 10 * v ^ 2
        + (3477234788491851104 / 14069794921875) * u ^ 11 * v ^ 1
        + (893196582208534976 / 42209384765625) * u ^ 12 * v ^ 0 := fun u v hu hv => by positivity
  have key2 : ∀ u v : ℝ, 0 ≤ u → 0 ≤ v → 0 ≤
      (37409152993234288243 / 1350700312500000) * u ^ 0 * v ^ 12
        + (141652293184454599147 / 450233437500000) * u ^ 1 * v ^ 11
        + (3024126581511710363 / 1860468750000) * u ^ 2 * v ^ 10
        + (31057287477560691373 / 6139546875000) * u ^ 3 * v ^ 9
        + (1202679372995241677 / 113695312500) * u ^ 4 * v ^ 8
        + (6686968743331875967 / 426357421875) * u ^ 5 * v ^ 7
        + (49120528265631242 / 2900390625) * u ^ 6 * v ^ 6
        + (5732085638079100292 / 426357421875) * u ^ 7 * v ^ 5
        + (221771274903497888 / 28423828125) * u ^ 8 * v ^ 4
        + (2482547884744047256 / 767443359375) * u ^ 9 * v ^ 3
        + (1165636915583741648 / 1279072265625) * u ^ 10 * v ^ 2
        + (2207954607014939296 / 14069794921875) * u ^ 11 * v ^ 1
        + (528100766668162624 / 42209384765625) * u ^ 12 * v ^ 0 := fun u v hu hv => by positivity
  have k1 := key1 (x - 1 / 8) (1 / 4 - x) (by linarith) (by linarith)
  have k2 := key2 (x - 1 / 8) (1 / 4 - x) (by linarith) (by linarith)
  rw [abs_le]
  unfold as53 e1Poly
  constructor
  · refine le_of_sub_nonneg (le_of_le_of_eq k1 ?_)
    ring
  · refine le_of_sub_nonneg (le_of_le_of_eq k2 ?_)
    ring

theorem as53_piece2 {x : ℝ} (h0 : 1 / 4 ≤ x) (h1 : x ≤ 1 / 2) :
    |as53 x + 0.5772156649 - e1Poly x| ≤ 0.000000245 := by
  have key1 : ∀ u v : ℝ, 0 ≤ u → 0 ≤ v → 0 ≤
      (13956196597008359 / 2701400625000000) * u ^ 0 * v ^ 12
        + (58810772023729961 / 900466875000000) * u ^ 1 * v ^ 11
        + (170628629037743 / 465117187500) * u ^ 2 * v ^ 10
        + (14899923945605189 / 12279093750000) * u ^ 3 * v ^ 9 + (100046135308961 / 37898437500) * u ^ 4 * v ^ 8
        + (3403626677907521 / 852714843750) * u ^ 5 * v ^ 7 + (12518131386848 / 2900390625) * u ^ 6 * v ^ 6
        + (1439681302474298 / 426357421875) * u ^ 7 * v ^ 5 + (2007589690796 / 1052734375) * u ^ 8 * v ^ 4
        + (585761773780324 / 767443359375) * u ^ 9 * v ^ 3 + (265004834078912 / 1279072265625) * u ^ 10 * v ^ 2
        + (486266908876624 / 14069794921875) * u ^ 11 * v ^ 1
        + (114080180328256 / 42209384765625) * u ^ 12 * v ^ 0 := fun u v hu hv => by positivity
  have key2 : ∀ u v : ℝ, 0 ≤ u → 0 ≤ v → 0 ≤
      (8251574479190041 / 2701400625000000) * u ^ 0 * v ^ 12
        + (30020312281063639 / 900466875000000) * u ^ 1 * v ^ 11
        + (81732405919057 / 465117187500) * u ^ 2 * v ^ 10 + (7307847130593211 / 12279093750000) * u ^ 3 * v ^ 9
        + (54174497164639 / 37898437500) * u ^ 4 * v ^ 8 + (2148316091142079 / 852714843750) * u ^ 5 * v ^ 7
        + (9513387537952 / 2900390625) * u ^ 6 * v ^ 6 + (1336290082050502 / 426357421875) * u ^ 7 * v ^ 5
        + (2276316766804 / 1052734375) * u ^ 8 * v ^ 4 + (802223918482076 / 767443359375) * u ^ 9 * v ^ 3
        + (428988012052288 / 1279072265625) * u ^ 10 * v ^ 2
        + (901718783385776 / 14069794921875) * u ^ 11 * v ^ 1
        + (232916242737344 / 42209384765625) * u ^ 12 * v ^ 0 := fun u v hu hv => by positivity
  have k1 := key1 (x - 1 / 4) (1 / 2 - x) (by linarith) (by linarith)
  have k2 := key2 (x - 1 / 4) (1 / 2 - x) (by linarith) (by linarith)
  rw [abs_le]
  unfold as53 e1Poly
  constructor
  · refine le_of_sub_nonneg (le_of_le_of_eq k1 ?_)
    ring
  · refine le_of_sub_nonneg (le_of_le_of_eq k2 ?_)
    ring

theorem as53_piece3 {x : ℝ} (h0 : 1 / 2 ≤ x) (h1 : x ≤ 1) :
    |as53 x + 0.5772156649 - e1Poly x| ≤ 0.000000245 := by
  have key1 : ∀ u v : ℝ, 0 ≤ u → 0 ≤ v → 0 ≤
      (1782502817629 / 2701400625000000) * u ^ 0 * v ^ 12 + (12388385818307 / 1800933750000000) * u ^ 1 * v ^ 11
        + (556423661831 / 14883750000000) * u ^ 2 * v ^ 10 + (1783204138879 / 12279093750000) * u ^ 3 * v ^ 9
        + (761235814153 / 1819125000000) * u ^ 4 * v ^ 8 + (364734909338 / 426357421875) * u ^ 5 * v ^ 7
        + (3472547413 / 2900390625) * u ^ 6 * v ^ 6 + (954644018651 / 852714843750) * u ^ 7 * v ^ 5
        + (38562656249 / 56847656250) * u ^ 8 * v ^ 4 + (194601500774 / 767443359375) * u ^ 9 * v ^ 3
        + (70716326122 / 1279072265625) * u ^ 10 * v ^ 2 + (108670928144 / 14069794921875) * u ^ 11 * v ^ 1
        + (41569681136 / 42209384765625) * u ^ 12 * v ^ 0 := fun u v hu hv => by positivity
  have key2 : ∀ u v : ℝ, 0 ≤ u → 0 ≤ v → 0 ≤
      (3639316292771 / 2701400625000000) * u ^ 0 * v ^ 12 + (30986167064893 / 1800933750000000) * u ^ 1 * v ^ 11
        + (1415146923769 / 14883750000000) * u ^ 2 * v ^ 10 + (3638614971521 / 12279093750000) * u ^ 3 * v ^ 9
        + (1046037222647 / 1819125000000) * u ^ 4 * v ^ 8 + (312992479462 / 426357421875) * u ^ 5 * v ^ 7
        + (1906241387 / 2900390625) * u ^ 6 * v ^ 6 + (400810758949 / 852714843750) * u ^ 7 * v ^ 5
        + (17914626151 / 56847656250) * u ^ 8 * v ^ 4 + (144262193626 / 767443359375) * u ^ 9 * v ^ 3
        + (98715521078 / 1279072265625) * u ^ 10 * v ^ 2 + (230192766256 / 14069794921875) * u ^ 11 * v ^ 1
        + (43146242464 / 42209384765625) * u ^ 12 * v ^ 0 := fun u v hu hv => by positivity
  have k1 := key1 (x - 1 / 2) (1 - x) (by linarith) (by linarith)
  have k2 := key2 (x - 1 / 2) (1 - x) (by linarith) (by linarith)
  rw [abs_le]
  unfold as53 e1Poly
  constructor
  · refine le_of_sub_nonneg (le_of_le_of_eq k1 ?_)
    ring
  · refine le_of_sub_nonneg (le_of_le_of_eq k2 ?_)
    ring

theorem as53_poly {x : ℝ} (h0 : 0 ≤ x) (h1 : x ≤ 1) : |as53 x + 0.5772156649 - e1Poly x| ≤ 0.000000245 := by
  by_cases a : x ≤ 1 / 8
  · exact as53_piece0 h0 a
  by_cases b : x ≤ 1 / 4
  · exact as53_piece1 (by linarith) b
  by_cases c : x ≤ 1 / 2
  · exact as53_piece2 (by linarith) c
  exact as53_piece3 (by linarith) h1

/-- The integrand against its polynomial. -/
theorem integrand_bound {t : ℝ} (h0 : 0 < t) (h1 : t ≤ 1) :
    |Real.exp (-t) / t - (1 / t - e1Poly' t)| ≤ 0.0000000023 := by
  have h := Real.exp_bound (x := -t) (by rw [abs_neg, abs_of_pos h0]; exact h1) (n := 12) (by norm_num)
  simp only [Finset.sum_range_succ, Finset.sum_range_zero, Nat.factorial] at h
  rw [abs_neg, abs_of_pos h0] at h
  have e : Real.exp (-t) / t - (1 / t - e1Poly' t) = (Real.exp (-t) - (1 - t * e1Poly' t)) / t := by
    field_simp
  rw [e, abs_div, abs_of_pos h0, div_le_iff₀ h0]
  have ht : t ^ 12 ≤ t := by
    calc t ^ 12 ≤ t ^ 1 := pow_le_pow_of_le_one h0.le h1 (by norm_num)
      _ = t := pow_one t
  have hb : |Real.exp (-t) - (1 - t * e1Poly' t)| ≤ t ^ 12 * (13 / (479001600 * 12)) := by
    refine le_of_eq_of_le ?_ (le_of_le_of_eq h ?_)
    · congr 1
      congr 1
      unfold e1Poly'
      norm_num
      ring
    · norm_num
  refine le_trans hb ?_
  nlinarith

theorem trueE1_split {x : ℝ} (h0 : 0 < x) (h1 : x ≤ 1) :
    |trueE1 x - (trueE1 1 - e1Poly 1 + e1Poly x - Real.log x)| ≤ 0.0000000023 ∧ trueE1 1 ≤ trueE1 x := by
  have hcont : ContinuousOn (fun t : ℝ => Real.exp (-t) / t) (uIcc x 1) := by
    rw [uIcc_of_le h1]
    intro t ht
    have : t ≠ 0 := (lt_of_lt_of_le h0 ht.1).ne'
    exact ((Real.continuous_exp.comp continuous_neg).continuousAt.div continuousAt_id this).continuousWithinAt
  have hint : IntervalIntegrable (fun t : ℝ => Real.exp (-t) / t) volume x 1 := hcont.intervalIntegrable
  have hsplit : (∫ t in x..1, Real.exp (-t) / t) + trueE1 1 = trueE1 x :=
    intervalIntegral.integral_interval_add_Ioi (integrable_exp_div h0) (integrable_exp_div one_pos)
  have hcont2 : ContinuousOn (fun t : ℝ => 1 / t - e1Poly' t) (uIcc x 1) := by
    rw [uIcc_of_le h1]
    intro t ht
    have : t ≠ 0 := (lt_of_lt_of_le h0 ht.1).ne'
    have hc : Continuous e1Poly' := by unfold e1Poly'; fun_prop
    exact ((continuousAt_const.div continuousAt_id this).sub hc.continuousAt).continuousWithinAt
  have hint2 : IntervalIntegrable (fun t : ℝ => 1 / t - e1Poly' t) volume x 1 := hcont2.intervalIntegrable
  have hval : (∫ t in x..1, (1 / t - e1Poly' t)) = (Real.log 1 - e1Poly 1) - (Real.log x - e1Poly x) := by
    refine intervalIntegral.integral_eq_sub_of_hasDerivAt (f := fun t => Real.log t - e1Poly t) ?_ hint2
    intro t ht
    rw [uIcc_of_le h1] at ht
    have : t ≠ 0 := (lt_of_lt_of_le h0 ht.1).ne'
    have h := (Real.hasDerivAt_log this).sub (e1Poly_hasDeriv t)
    rw [one_div]
    exact h
  have herr : ‖∫ t in x..1, (Real.exp (-t) / t - (1 / t - e1Poly' t))‖ ≤ 0.0000000023 * |1 - x| := by
    apply intervalIntegral.norm_integral_le_of_norm_le_const
    intro t ht
    rw [uIoc_of_le h1] at ht
    exact integrand_bound (h0.trans ht.1) ht.2
  rw [intervalIntegral.integral_sub hint hint2, hval, Real.norm_eq_abs, Real.log_one] at herr
  constructor
  · have hx1 : |1 - x| ≤ 1 := by rw [abs_le]; constructor <;> linarith
    have : 0.0000000023 * |1 - x| ≤ (0.0000000023 : ℝ) := by nlinarith
    refine le_of_eq_of_le ?_ (le_trans herr this)
    congr 1
    linarith
  · have : 0 ≤ ∫ t in x..1, Real.exp (-t) / t := by
      apply intervalIntegral.integral_nonneg h1
      intro t ht
      have : 0 < t := lt_of_lt_of_le h0 ht.1
      positivity
    linarith

theorem trueE1_one : |trueE1 1 - e1Poly 1 + 0.5772156649| ≤ 0.0000000005 ∧ 0.2193 ≤ trueE1 1 := by
  have hJ := cfJ_eq 1
  obtain ⟨hlo, hhi⟩ := convergent_error one_pos one_pos 40 (cfA_growth0 one_pos 40)
  have hA := cfA_pos one_pos 41
  have hA0 := cfA_pos one_pos 40
  have hB := cfB_pos one_pos 40
  have hv1 : 0.59634736221 ≤ cfB 1 41 / cfA 1 41 := by
    rw [le_div_iff₀ hA, (cfA_one 40).2, (cfB_one 40).2]
    have : (cfZ 1 2 40).2 * 59634736221 ≤ (cfZ 0 1 40).2 * 10 ^ 11 := by decide +kernel
    have h : ((cfZ 1 2 40).2 : ℝ) * 59634736221 ≤ ((cfZ 0 1 40).2 : ℝ) * 10 ^ 11 := by exact_mod_cast this
    norm_num at h ⊢
    linarith
  have hv2 : cfB 1 41 / cfA 1 41 ≤ 0.59634736222 := by
    rw [div_le_iff₀ hA, (cfA_one 40).2, (cfB_one 40).2]
    have : (cfZ 0 1 40).2 * 10 ^ 11 ≤ (cfZ 1 2 40).2 * 59634736222 := by decide +kernel
    have h : ((cfZ 0 1 40).2 : ℝ) * 10 ^ 11 ≤ ((cfZ 1 2 40).2 : ℝ) * 59634736222 := by exact_mod_cast this
    norm_num at h ⊢
    linarith
  have hd : (((40 : Nat) : ℝ) + 1) / 1 * cfDelta 1 40 ≤ 0.0000000027 := by
    unfold cfDelta
    rw [div_one, mul_div_assoc', div_le_iff₀ (mul_pos hA0 hB), (cfA_one 40).1, (cfB_one 40).2]
    have : 41 * ((Nat.factorial 40 : Int)) ^ 2 * 10 ^ 10 ≤ 27 * ((cfZ 1 2 40).1 * (cfZ 0 1 40).2) := by decide +kernel
    have h : (41 * ((Nat.factorial 40 : Int)) ^ 2 * 10 ^ 10 : ℝ) ≤ 27 * (((cfZ 1 2 40).1 : ℝ) * ((cfZ 0 1 40).2 : ℝ)) := by
      exact_mod_cast this
    push_cast at h ⊢
    norm_num at h ⊢
    linarith
  have hd2 : (((40 : Nat) : ℝ) + 1) / 1 * cfDelta 1 40 * (cfB 1 41 / cfA 1 41) ≤ 0.0000000027 * 0.59634736222 := by
    apply mul_le_mul hd hv2 (div_pos hB hA).le (by norm_num)
  have hT : trueE1 1 = Real.exp (-1) * cfJ 1 0 := by
    rw [hJ, ← mul_assoc, ← Real.exp_add]
    simp
  have e1 := Real.exp_neg_one_gt_d9
  have e2 := Real.exp_neg_one_lt_d9
  have j1 : 0.59634736221 ≤ cfJ 1 0 := by linarith
  have j2 : cfJ 1 0 ≤ 0.596347364 := by norm_num at hd2; norm_num; linarith
  have p1 : e1Poly 1 ≤ 0.79659959946 := by unfold e1Poly; norm_num
  have p2 : 0.79659959945 ≤ e1Poly 1 := by unfold e1Poly; norm_num
  have l1 : 0.36787944116 * 0.59634736221 ≤ Real.exp (-1) * cfJ 1 0 :=
    mul_le_mul e1.le j1 (by norm_num) (Real.exp_pos _).le
  have l2 : Real.exp (-1) * cfJ 1 0 ≤ 0.3678794412 * 0.596347364 :=
    mul_le_mul e2.le j2 (cfJ_nonneg one_pos 0) (by norm_num)
  rw [hT, abs_le]
  norm_num at l1 l2 p1 p2 ⊢
  refine ⟨⟨?_, ?_⟩, ?_⟩ <;> linarith

/-- The polynomial of fisx_math.cpp:115-135 has an absolute error below 2.5e-7. -/
theorem as53_accuracy {x : ℝ} (h0 : 0 < x) (h1 : x ≤ 1) :
    |as53 x - Real.log x - trueE1 x| ≤ 2.5e-7 ∧ 0.2193 ≤ trueE1 x := by
  obtain ⟨a1, a2⟩ := trueE1_one
  obtain ⟨b1, b2⟩ := trueE1_split h0 h1
  have c := as53_poly h0.le h1
  refine ⟨?_, by linarith⟩
  rw [abs_le] at a1 b1 c ⊢
  norm_num at a1 b1 c ⊢
  constructor <;> linarith

/-! ## C131 -/

/-- **C131** For every positive argument other than 1, E1 returns the exponential integral (the integral of exp(-t)/t
from x to infinity) with a relative error below 1.2e-6. Missing: the argument 1, see `C96_E1_one_violated`. -/
theorem C131_E1_accurate {x : ℝ} (h0 : 0 < x) (h1 : x ≠ 1) : ∃ v, E1 x = .ok v ∧
    |v - ∫ t in Set.Ioi x, Real.exp (-t) / t| ≤ 1.2e-6 * ∫ t in Set.Ioi x, Real.exp (-t) / t := by
  change ∃ v, E1 x = .ok v ∧ |v - trueE1 x| ≤ 1.2e-6 * trueE1 x
  unfold E1
  rw [if_neg h0.ne', if_neg (not_lt.2 h0.le)]
  by_cases h : x < 1
  · rw [if_pos h]
    refine ⟨as53 x - Real.log x, ?_, ?_⟩
    · unfold AS_5_1_53
      rw [if_neg (not_lt.2 h.le)]
      rfl
    · obtain ⟨a, b⟩ := as53_accuracy h0 h.le
      refine le_trans a ?_
      norm_num at b ⊢
      linarith
  · rw [if_neg h]
    obtain ⟨d, hd, hpos, hlo, hhi⟩ := deBoerCF_accuracy (lt_of_le_of_ne (not_lt.1 h) (Ne.symm h1))
    refine ⟨Real.exp (-x) * d, by rw [hd]; rfl, ?_⟩
    have he := Real.exp_pos (-x)
    have hT : trueE1 x = Real.exp (-x) * (Real.exp x * trueE1 x) := by
      rw [← mul_assoc, ← Real.exp_add]; simp
    rw [abs_le]
    have m1 := mul_nonneg he.le hlo
    have m2 := mul_le_mul_of_nonneg_left hhi he.le
    have m3 := mul_pos he hpos
    norm_num at m2 ⊢
    constructor <;> nlinarith

/-- **C131** deBoerD returns exp(x) E1(x) for every positive argument, with the same relative error. -/
theorem C131_deBoerD_accurate {x : ℝ} (h0 : 0 < x) : ∃ v, deBoerD x = .ok (some v) ∧
    |v - Real.exp x * ∫ t in Set.Ioi x, Real.exp (-t) / t| ≤
      1.2e-6 * (Real.exp x * ∫ t in Set.Ioi x, Real.exp (-t) / t) := by
  change ∃ v, deBoerD x = .ok (some v) ∧ |v - Real.exp x * trueE1 x| ≤ 1.2e-6 * (Real.exp x * trueE1 x)
  unfold deBoerD
  rw [if_neg (not_lt.2 h0.le)]
  by_cases h : x > 1
  · rw [if_pos h]
    obtain ⟨d, hd, hpos, hlo, hhi⟩ := deBoerCF_accuracy h
    refine ⟨d, by rw [hd]; rfl, ?_⟩
    rw [abs_le]
    norm_num at hhi ⊢
    constructor <;> linarith
  · rw [if_neg h]
    refine ⟨Real.exp x * (as53 x - Real.log x), ?_, ?_⟩
    · unfold AS_5_1_53
      rw [if_neg h]
      simp only [Outcome.ok_bind, if_neg h0.ne']
      rfl
    · obtain ⟨a, b⟩ := as53_accuracy h0 (not_lt.1 h)
      have he := Real.exp_pos x
      rw [← mul_sub, abs_mul, abs_of_pos he, mul_left_comm]
      apply mul_le_mul_of_nonneg_left _ he.le
      refine le_trans a ?_
      norm_num at b ⊢
      linarith

/-- The hypotheses are met on either side of 1. -/
example : ∃ v, E1 (1 / 4) = .ok v ∧ |v - ∫ t in Set.Ioi (1 / 4 : ℝ), Real.exp (-t) / t| ≤
    1.2e-6 * ∫ t in Set.Ioi (1 / 4 : ℝ), Real.exp (-t) / t := C131_E1_accurate (by norm_num) (by norm_num)
example : ∃ v, E1 7 = .ok v ∧ |v - ∫ t in Set.Ioi (7 : ℝ), Real.exp (-t) / t| ≤
    1.2e-6 * ∫ t in Set.Ioi (7 : ℝ), Real.exp (-t) / t := C131_E1_accurate (by norm_num) (by norm_num)

end MathFn
end Fisx
