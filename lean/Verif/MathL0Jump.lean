import Verif.MathL0

/-!
# `Math::deBoerL0` where its two approximations of the exponential integral meet (C135)

`deBoerD` uses a polynomial up to 1 and a continued fraction above 1; the two differ by about 8e-8 at 1. The general
formula divides the difference of two nearly equal values by a small coefficient.
-/

set_option linter.unusedSectionVars false

namespace Fisx
namespace MathFn

open MeasureTheory Set Filter Topology

/-- The numerators and denominators of the convergents at `p / q`, times the power of `q`. -/
def cfFrac (p q a b : Int) : Nat → Int × Int
  | 0 => (a, b)
  | n + 1 =>
    let r := cfFrac p q a b n
    (r.2, (p + (2 * (n : Int) + 3) * q) * r.2 - ((n : Int) + 1) ^ 2 * q ^ 2 * r.1)

theorem cfA_frac (p q : Int) (hq : (q : ℝ) ≠ 0) (n : Nat) :
    cfA ((p : ℝ) / q) n * (q : ℝ) ^ n = ((cfFrac p q 1 (p + q) n).1 : ℝ) ∧
    cfA ((p : ℝ) / q) (n + 1) * (q : ℝ) ^ (n + 1) = ((cfFrac p q 1 (p + q) n).2 : ℝ) := by
  induction n with
  | zero =>
    simp only [cfA, cfFrac]
    constructor
    · simp
    · push_cast; field_simp; ring
  | succ n ih =>
    refine ⟨ih.2, ?_⟩
    rw [cfA, cfFrac]
    push_cast
    rw [← ih.1, ← ih.2]
    field_simp
    ring

theorem cfB_frac (p q : Int) (hq : (q : ℝ) ≠ 0) (n : Nat) :
    cfB ((p : ℝ) / q) n * (q : ℝ) ^ n = ((cfFrac p q 0 q n).1 : ℝ) ∧
    cfB ((p : ℝ) / q) (n + 1) * (q : ℝ) ^ (n + 1) = ((cfFrac p q 0 q n).2 : ℝ) := by
  induction n with
  | zero => simp [cfB, cfFrac]
  | succ n ih =>
    refine ⟨ih.2, ?_⟩
    rw [cfB, cfFrac]
    push_cast
    rw [← ih.1, ← ih.2]
    field_simp
    ring

/-- The convergents grow. -/
theorem convergent_step {x : ℝ} (hx : 0 < x) (n : Nat) : cfB x n / cfA x n ≤ cfB x (n + 1) / cfA x (n + 1) := by
  rw [div_le_div_iff₀ (cfA_pos hx n) (cfA_pos hx (n + 1))]
  have := cf_det x n
  nlinarith [sq_nonneg ((n.factorial : ℝ))]

theorem convergent_mono {x : ℝ} (hx : 0 < x) : Monotone (fun n => cfB x n / cfA x n) :=
  monotone_nat_of_le_succ (convergent_step hx)

/-- The continued fraction stops at the convergent 22 at the latest. -/
theorem deBoerCF_le {x : ℝ} (hx : 1 < x) : ∃ d, deBoerCF x = .ok d ∧ d ≤ cfB x 22 / cfA x 22 := by
  have hx0 : 0 < x := by linarith
  refine ⟨_, if_neg (not_le.2 hx), ?_⟩
  have h := loop_result hx0 1.0e-7 99 0
  simp only [lentzState, Nat.zero_add] at h
  have h21 := cfDelta_21 hx.le
  rcases h with ⟨_, h2⟩ | ⟨k, hk, h1, h2, h3⟩
  · exact absurd (h2 20 (by omega)) (not_le.2 h21)
  · have hk20 : k ≤ 20 := by
      by_contra hc
      exact absurd (h3 20 (by omega)) (not_le.2 h21)
    rw [show 100 - 1 = 99 from rfl, h1]
    exact convergent_mono hx0 (show k + 2 ≤ 22 by omega)

theorem convergent_le {x : ℝ} (hx : 0 < x) (n : Nat) : cfB x n / cfA x n ≤ Real.exp x * trueE1 x := by
  refine le_trans (convergent_step hx n) ?_
  have := (convergent_error hx hx n (cfA_growth0 hx n)).1
  rw [cfJ_eq] at this
  linarith

/-- An argument slightly above 1. -/
noncomputable def xj : ℝ := 1 + 1e-12

theorem xj_frac : xj = ((1000000000001 : Int) : ℝ) / ((1000000000000 : Int) : ℝ) := by unfold xj; norm_num

theorem jump_above : cfB xj 22 / cfA xj 22 + 9e-8 ≤ Real.exp xj * trueE1 xj := by
  have hx : 0 < xj := by unfold xj; norm_num
  refine le_trans ?_ (convergent_le hx 41)
  have hq : (((1000000000000 : Int)) : ℝ) ≠ 0 := by norm_num
  have a22 := cfA_pos hx 22
  have a41 := cfA_pos hx 41
  rw [xj_frac] at a22 a41 ⊢
  have A22 := (cfA_frac 1000000000001 1000000000000 hq 22).1
  have B22 := (cfB_frac 1000000000001 1000000000000 hq 22).1
  have A41 := (cfA_frac 1000000000001 1000000000000 hq 41).1
  have B41 := (cfB_frac 1000000000001 1000000000000 hq 41).1
  have q22 : (0 : ℝ) < (((1000000000000 : Int)) : ℝ) ^ 22 := by positivity
  have q41 : (0 : ℝ) < (((1000000000000 : Int)) : ℝ) ^ 41 := by positivity
  rw [← mul_div_mul_right _ _ q22.ne', A22, B22, ← mul_div_mul_right (cfB _ 41) _ q41.ne', A41, B41]
  have pA22 : (0 : ℝ) < ((cfFrac 1000000000001 1000000000000 1 (1000000000001 + 1000000000000) 22).1 : ℝ) := by
    rw [← A22]; positivity
  have pA41 : (0 : ℝ) < ((cfFrac 1000000000001 1000000000000 1 (1000000000001 + 1000000000000) 41).1 : ℝ) := by
    rw [← A41]; positivity
  rw [div_add' _ _ _ pA22.ne', div_le_div_iff₀ pA22 pA41]
  have h : ((cfFrac 1000000000001 1000000000000 0 1000000000000 22).1 * 10 ^ 8
      + 9 * (cfFrac 1000000000001 1000000000000 1 (1000000000001 + 1000000000000) 22).1)
      * (cfFrac 1000000000001 1000000000000 1 (1000000000001 + 1000000000000) 41).1
      ≤ 10 ^ 8 * (cfFrac 1000000000001 1000000000000 0 1000000000000 41).1
      * (cfFrac 1000000000001 1000000000000 1 (1000000000001 + 1000000000000) 22).1 := by decide +kernel
  have h' : (((cfFrac 1000000000001 1000000000000 0 1000000000000 22).1 : ℝ) * 10 ^ 8
      + 9 * ((cfFrac 1000000000001 1000000000000 1 (1000000000001 + 1000000000000) 22).1 : ℝ))
      * ((cfFrac 1000000000001 1000000000000 1 (1000000000001 + 1000000000000) 41).1 : ℝ)
      ≤ 10 ^ 8 * ((cfFrac 1000000000001 1000000000000 0 1000000000000 41).1 : ℝ)
      * ((cfFrac 1000000000001 1000000000000 1 (1000000000001 + 1000000000000) 22).1 : ℝ) := by exact_mod_cast h
  clear h A22 B22 A41 B41 pA22 pA41
  generalize ((cfFrac 1000000000001 1000000000000 1 (1000000000001 + 1000000000000) 22).1 : ℝ) = u at *
  generalize ((cfFrac 1000000000001 1000000000000 1 (1000000000001 + 1000000000000) 41).1 : ℝ) = v at *
  generalize ((cfFrac 1000000000001 1000000000000 0 1000000000000 22).1 : ℝ) = w at *
  generalize ((cfFrac 1000000000001 1000000000000 0 1000000000000 41).1 : ℝ) = z at *
  norm_num
  nlinarith

theorem jump_below : -(1.5e-8) ≤ Real.exp 1 * (as53 1 - trueE1 1) := by
  have h := (abs_le.1 trueE1_one.1).2
  have p2 : 0.79659959945 ≤ e1Poly 1 := by unfold e1Poly; norm_num
  have p1 : e1Poly 1 ≤ 0.79659959946 := by unfold e1Poly; norm_num
  have v : as53 1 = 0.21938393 := by unfold as53; norm_num
  have hd : -(5.2e-9) ≤ as53 1 - trueE1 1 := by rw [v]; norm_num at h p1 p2 ⊢; linarith
  have e := Real.exp_one_lt_d9
  have e0 := Real.exp_pos 1
  norm_num at hd e ⊢
  nlinarith

/-- **C135** (violation) The value returned is not the integral: with mu1 = 1, mu2 = 1e-12, muj = 1 + 1e-12 and unit
density and thickness it is more than 5000 times too large, because the polynomial used for arguments up to 1 and the
continued fraction used above 1 differ, and their difference is divided by mu2. -/
theorem C135_integral_violated : ∃ v, deBoerL0 1 1e-12 (1 + 1e-12) 1 1 = .ok v ∧ 5000 < v ∧
    (∫ x in (0 : ℝ)..1, ∫ y in x..1,
      Real.exp (-(1e-12 * x) - 1 * y) * ∫ t in Set.Ioi ((1 + 1e-12) * (y - x)), Real.exp (-t) / t) < 1 := by
  have hI : layerIntegral 1 1e-12 (1 + 1e-12) 1 < 1 ∧ 0 ≤ layerIntegral 1 1e-12 (1 + 1e-12) 1 := by
    refine ⟨?_, (layerIntegral_pos one_pos (by norm_num) one_pos).le⟩
    have h := layerIntegral_le (mu1 := 1) (mu2 := 1e-12) (muj := 1 + 1e-12) (d := 1) one_pos (by norm_num)
      (by norm_num) zero_le_one
    rw [kInt_eq one_ne_zero (by norm_num) (by norm_num) one_pos] at h
    have hk : kPrim 1 (1 + 1e-12) 1 ≤ 0.95 := by
      unfold kPrim
      rw [pvE1_pos (by norm_num), div_one]
      have h1 : Real.log (1 + 1 / (1 + 1e-12)) ≤ Real.log 2 :=
        Real.log_le_log (by norm_num) (by norm_num)
      have h2 := Real.log_two_lt_d9
      have h3 := trueE1_nonneg ((1 + 1e-12) * 1) (by norm_num)
      have h4 := mul_nonneg (Real.exp_pos (-(1 * 1 : ℝ))).le h3
      have h5 : trueE1 ((1 + 1e-12 + 1) * 1) ≤ 0.25 := by
        have hx : (0 : ℝ) < (1 + 1e-12 + 1) * 1 := by norm_num
        obtain ⟨_, hu⟩ := trueE1_bounds hx
        have he : Real.exp (-((1 + 1e-12 + 1) * 1) : ℝ) ≤ 0.5 := by
          refine le_trans (Real.exp_le_exp.2 (show -((1 + 1e-12 + 1) * 1 : ℝ) ≤ -1 by norm_num)) ?_
          have := Real.exp_neg_one_lt_d9
          norm_num at this ⊢
          linarith
        refine le_trans hu ?_
        rw [mul_one_div, div_le_iff₀ hx]
        norm_num at he ⊢
        linarith
      norm_num at h1 h2 h4 h5 ⊢
      linarith
    have e : kPrim 1 (1 + 1e-12) 1 / (1 + 1e-12) ≤ 0.95 := by
      rw [div_le_iff₀ (by norm_num)]
      norm_num at hk ⊢
      linarith
    norm_num at h e ⊢
    linarith
  obtain ⟨d2, hd2, c2⟩ := deBoerCF_le (x := xj) (by unfold xj; norm_num)
  obtain ⟨D3, hD3, c3⟩ := deBoerD_pv (x := (1 + 1e-12 + 1) * (1 * 1)) (by norm_num)
  have hD1 : deBoerD ((1 + 1e-12 - 1e-12) * (1 * 1)) = .ok (some (Real.exp 1 * (as53 1))) := by
    norm_num [deBoerD, AS_5_1_53]
  have hD2 : deBoerD ((1 + 1e-12) * (1 * 1)) = .ok (some d2) := by
    rw [show ((1 + 1e-12) * (1 * 1) : ℝ) = xj by unfold xj; ring]
    have h1 : ¬ xj < 0 := by unfold xj; norm_num
    have h2 : xj > 1 := by unfold xj; norm_num
    unfold deBoerD
    rw [if_neg h1, if_pos h2, hd2]
    rfl
  have hval : deBoerL0 1 1e-12 (1 + 1e-12) 1 1
      = checkResult (some (formulaL0 1 1e-12 (1 + 1e-12) 1 (Real.exp 1 * as53 1) d2 D3)) := by
    unfold deBoerL0
    rw [if_neg (by norm_num)]
    simp only
    rw [if_neg (by norm_num), if_neg (by norm_num)]
    change (do
      let D1 ← deBoerD ((1 + 1e-12 - 1e-12) * (1 * 1))
      let D2 ← deBoerD ((1 + 1e-12) * (1 * 1))
      let D3 ← deBoerD ((1 + 1e-12 + 1) * (1 * 1))
      checkResult (do deBoerL0Formula 1 1e-12 (1 + 1e-12) (1 * 1) (← D1) (← D2) (← D3))) = _
    rw [hD1, hD2, hD3]
    simp only [Outcome.ok_bind, Option.bind_eq_bind, Option.bind_some]
    rw [deBoerL0Formula_eq one_pos (by norm_num) (by norm_num), mul_one]
  have hbig : 5000 < formulaL0 1 1e-12 (1 + 1e-12) 1 (Real.exp 1 * as53 1) d2 D3 := by
    have hex := formula_exact (mu1 := 1) (mu2 := 1e-12) (muj := 1 + 1e-12) (d := 1) one_pos (by norm_num) (by norm_num)
      (by norm_num) one_pos
    have j1 := jump_below
    have j2 := jump_above
    have ej : (1 + 1e-12 : ℝ) * 1 = xj := by unfold xj; ring
    have e1 : (1 + 1e-12 - 1e-12 : ℝ) * 1 = 1 := by norm_num
    rw [ej, e1, pvE1_pos one_pos, pvE1_pos (show 0 < xj by unfold xj; norm_num)] at hex
    rw [mul_one (1 : ℝ)] at c3
    unfold errD at c3
    rw [if_pos (by norm_num)] at c3
    have c3' := (abs_le.1 c3).1
    have hE : 0.13 ≤ Real.exp (-(1 + (1 + 1e-12)) * 1) := by
      have h9 := Real.exp_neg_one_gt_d9
      have hs : Real.exp (-(1 + (1 + 1e-12)) * 1) = Real.exp (-1) * Real.exp (-1) * Real.exp (-1e-12) := by
        rw [← Real.exp_add, ← Real.exp_add]; congr 1; norm_num
      have hl := Real.add_one_le_exp (-1e-12 : ℝ)
      rw [hs]
      have : 0.36787944116 * 0.36787944116 ≤ Real.exp (-1) * Real.exp (-1) :=
        mul_le_mul h9.le h9.le (by norm_num) (Real.exp_pos _).le
      have := mul_le_mul this hl (by norm_num) (by positivity)
      refine le_trans ?_ this
      norm_num
    have hI0 := hI.2
    rw [← hex] at hI0
    rw [mul_sub] at j1
    generalize Real.exp 1 * trueE1 1 = T1 at *
    generalize Real.exp 1 * as53 1 = D1 at *
    generalize Real.exp xj * trueE1 xj = T2 at *
    generalize Real.exp ((1 + 1e-12 + 1) * 1) * pvE1 ((1 + 1e-12 + 1) * 1) = T3 at *
    unfold formulaL0 at hI0 ⊢
    generalize Real.exp (-(1 + (1 + 1e-12)) * 1) = Y at *
    generalize Real.log (1 + 1 / (1 + 1e-12)) / (1 * (1 + 1e-12)) = p at *
    generalize Real.exp (-(1 + 1e-12) * 1) / (1e-12 * (1 + 1e-12)) * Real.log (1 - 1e-12 / (1 + 1e-12)) = q at *
    have hb : 70000 ≤ (D1 - T1) / (1e-12 * (1 + 1e-12)) - (d2 - T2) / (1 * 1e-12) + (D3 - T3) / (1 * (1 + 1e-12)) := by
      have f1 : (-(1.5e-8)) / (1e-12 * (1 + 1e-12)) ≤ (D1 - T1) / (1e-12 * (1 + 1e-12)) :=
        div_le_div_of_nonneg_right j1 (by norm_num)
      have f2 : (d2 - T2) / (1 * 1e-12) ≤ (-9e-8) / (1 * 1e-12) :=
        div_le_div_of_nonneg_right (by linarith) (by norm_num)
      have f3 : (-(1.2e-6 / ((1 + 1e-12 + 1) * 1))) / (1 * (1 + 1e-12)) ≤ (D3 - T3) / (1 * (1 + 1e-12)) :=
        div_le_div_of_nonneg_right c3' (by norm_num)
      norm_num at f1 f2 f3 ⊢
      linarith
    have hm := mul_le_mul hE hb (by norm_num) (by linarith)
    have key : (D1 / (1e-12 * (1 + 1e-12)) - d2 / (1 * 1e-12) + D3 / (1 * (1 + 1e-12))) * Y
      = (T1 / (1e-12 * (1 + 1e-12)) - T2 / (1 * 1e-12) + T3 / (1 * (1 + 1e-12))) * Y
        + Y * ((D1 - T1) / (1e-12 * (1 + 1e-12)) - (d2 - T2) / (1 * 1e-12) + (D3 - T3) / (1 * (1 + 1e-12))) := by ring
    rw [key]
    linarith
  refine ⟨_, ?_, hbig, hI.1⟩
  rw [hval]
  have h0 : ¬ formulaL0 1 1e-12 (1 + 1e-12) 1 (Real.exp 1 * as53 1) d2 D3 < 0 :=
    not_lt.2 (le_trans (by norm_num : (0 : ℝ) ≤ 5000) hbig.le)
  unfold checkResult
  simp only [if_neg h0]

end MathFn
end Fisx
