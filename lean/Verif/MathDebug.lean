import Verif.MathFnProps
import Mathlib.Analysis.SpecialFunctions.Arsinh

/-!
# The consistency check of the build without NDEBUG in `Math::deBoerD`

C130: the check (Abramowitz and Stegun 5.1.20) never fires, so that both builds return the same values.
-/

set_option linter.unusedSectionVars false

namespace Fisx
namespace MathFn

/-- fisx_math.cpp:173-190: the check of the build without NDEBUG. The texts go to the standard output; the calls that
compute the printed numbers are kept, because they can throw. -/
noncomputable def checkLimits (x r : ℝ) : Outcome (Option ℝ) :=
  if r < 0.5 * Real.log (1 + 2.0 / x) ∨ r > Real.log (1 + 1.0 / x) then do
    let _old ← AS_5_1_56 x
    let _new ← deBoerCF x 1.0e-5
    let v ← deBoerCF x 1.0e-5
    return some v
  else return some r

/-- fisx_math.cpp:159-191: `deBoerD` in a build without NDEBUG. At 0 the value and both limits are infinite, hence
neither comparison is true and the infinite value is returned. -/
noncomputable def deBoerDDebug (x : ℝ) : Outcome (Option ℝ) :=
  if x < 0 then do
    let e ← E1 x
    return some (Real.exp x * e)
  else if x > 1 then do
    let d ← deBoerCF x
    checkLimits x d
  else do
    let a ← AS_5_1_53 x
    if x = 0 then return none else checkLimits x (Real.exp x * (a - Real.log x))

/-! ### The continued fraction -/


/-- The convergents from the second on stay above x (x+2)/(x+1) and below the second one. -/
theorem lentzLoop_limits {x : ℝ} (hx : 0 < x) (eps : ℝ) (n : Nat) :
    ∀ (i : Nat), 1 ≤ i → ∀ b f C D A A' B B' : ℝ, Lentz x i b f C D A A' B B' →
      0 < (x + 2 * i + 1) * ((x + 1) * A - x * (x + 2) * B) - i * i * ((x + 1) * A' - x * (x + 2) * B') →
      ((i : ℝ) + 1) * ((x + 1) * A - x * (x + 2) * B) ≤
        (x + 2 * i + 1) * ((x + 1) * A - x * (x + 2) * B) - i * i * ((x + 1) * A' - x * (x + 2) * B') →
      0 ≤ (x + 2 * i + 1) * ((x ^ 2 + 4 * x + 2) * B - (x + 3) * A)
        - i * i * ((x ^ 2 + 4 * x + 2) * B' - (x + 3) * A') →
      ((i : ℝ) + 1) * ((x ^ 2 + 4 * x + 2) * B - (x + 3) * A) ≤
        (x + 2 * i + 1) * ((x ^ 2 + 4 * x + 2) * B - (x + 3) * A)
        - i * i * ((x ^ 2 + 4 * x + 2) * B' - (x + 3) * A') →
      lentzLoop x eps i n b f C D = lentzFallback x ∨
      ((x + 3) / (x ^ 2 + 4 * x + 2) ≤ lentzLoop x eps i n b f C D ∧
        lentzLoop x eps i n b f C D ≤ (x + 1) / (x * (x + 2))) := by
  induction n with
  | zero => intro i hi b f C D A A' B B' h _ _ _ _; exact Or.inl rfl
  | succ n ih =>
    intro i hi b f C D A A' B B' h g1 g2 k1 k2
    have hs := lentz_step hx hi h
    unfold lentzLoop
    simp only
    have hb : b + 2 = x + 2 * i + 1 := by rw [h.hb]; ring
    split
    · right
      have hB := hs.Bpos
      have hA : 0 < (b + 2) * A - i * i * A' := by
        have := hs.Gpos
        have := mul_pos hx hB
        linarith
      have hf := hs.hf
      rw [hf, one_div, inv_div]
      rw [hb] at hA hB ⊢
      constructor
      · rw [div_le_div_iff₀ (by positivity) hA]
        nlinarith [k1]
      · rw [div_le_div_iff₀ hA (by positivity)]
        nlinarith [g1]
    · have e1 : (x + 2 * (i : ℝ) + 1) * ((x + 1) * A - x * (x + 2) * B) - i * i * ((x + 1) * A' - x * (x + 2) * B')
          = (x + 1) * ((b + 2) * A - i * i * A') - x * (x + 2) * ((b + 2) * B - i * i * B') := by rw [hb]; ring
      have e2 : (x + 2 * (i : ℝ) + 1) * ((x ^ 2 + 4 * x + 2) * B - (x + 3) * A)
          - i * i * ((x ^ 2 + 4 * x + 2) * B' - (x + 3) * A')
          = (x ^ 2 + 4 * x + 2) * ((b + 2) * B - i * i * B') - (x + 3) * ((b + 2) * A - i * i * A') := by
        rw [hb]; ring
      rw [e1] at g1 g2
      rw [e2] at k1 k2
      have s1 := step_pos (i := i + 1) hx g1.le (by push_cast; exact g2)
      have s2 := step_pos (i := i + 1) hx k1 (by push_cast; exact k2)
      have hi1 : (0 : ℝ) < ((i + 1 : Nat) : ℝ) + 1 := by positivity
      exact ih (i + 1) (by omega) _ _ _ _ _ _ _ _ hs
        (lt_of_lt_of_le (mul_pos hi1 g1) s1) s1 (le_trans (mul_nonneg hi1.le k1) s2) s2

theorem deBoerCF_limits {x : ℝ} (hx : 1 < x) (eps : ℝ) (maxIter : Nat) :
    ∃ d, deBoerCF x eps maxIter = .ok d ∧ (d = lentzFallback x ∨
      ((x + 3) / (x ^ 2 + 4 * x + 2) ≤ d ∧ d ≤ (x + 1) / (x * (x + 2)))) := by
  refine ⟨_, if_neg (not_le.2 hx), ?_⟩
  have hx0 : 0 < x := by linarith
  refine lentzLoop_limits hx0 eps _ 1 (le_refl _) _ _ _ _ _ _ _ _ (lentz_init x hx0) ?_ ?_ ?_ ?_
  all_goals push_cast; nlinarith

/-! ### The limits -/

theorem log_le_pade {y : ℝ} (h0 : 0 ≤ y) (h2 : y ≤ 2) :
    Real.log (1 + y) ≤ y * (2 + 3 * y) / (2 + 4 * y + y ^ 2) := by
  have key : MonotoneOn (fun y : ℝ => y * (2 + 3 * y) / (2 + 4 * y + y ^ 2) - Real.log (1 + y)) (Set.Icc 0 2) := by
    have hd : ∀ y : ℝ, 0 ≤ y → HasDerivAt (fun y : ℝ => y * (2 + 3 * y) / (2 + 4 * y + y ^ 2) - Real.log (1 + y))
        (((1 * (2 + 3 * y) + y * (3 * 1)) * (2 + 4 * y + y ^ 2) - y * (2 + 3 * y) * (4 * 1 + 2 * y))
          / (2 + 4 * y + y ^ 2) ^ 2 - 1 / (1 + y)) y := by
      intro y hy
      have hden : (2 + 4 * y + y ^ 2) ≠ 0 := by positivity
      have h1 : HasDerivAt (fun y : ℝ => 2 + 3 * y) (3 * 1) y := ((hasDerivAt_id y).const_mul 3).const_add 2
      have h2 : HasDerivAt (fun y : ℝ => y * (2 + 3 * y)) (1 * (2 + 3 * y) + y * (3 * 1)) y :=
        (hasDerivAt_id y).mul h1
      have h3 : HasDerivAt (fun y : ℝ => 2 + 4 * y + y ^ 2) (4 * 1 + 2 * y) y := by
        have a := (((hasDerivAt_id y).const_mul 4).const_add 2).add ((hasDerivAt_id y).pow 2)
        exact a.congr_deriv (by simp)
      have h4 : HasDerivAt (fun y : ℝ => Real.log (1 + y)) (1 / (1 + y)) y :=
        ((hasDerivAt_id y).const_add 1).log (by simp only [id]; positivity)
      exact (h2.div h3 hden).sub h4
    apply monotoneOn_of_deriv_nonneg (convex_Icc 0 2)
    · intro y hy
      exact (hd y hy.1).continuousAt.continuousWithinAt
    · intro y hy
      rw [interior_Icc] at hy
      exact (hd y hy.1.le).differentiableAt.differentiableWithinAt
    · intro y hy
      rw [interior_Icc] at hy
      obtain ⟨a, b⟩ := hy
      rw [(hd y a.le).deriv, sub_nonneg, div_le_div_iff₀ (by positivity) (by positivity)]
      nlinarith [mul_pos a a, mul_pos a (sub_pos.2 b), mul_pos (mul_pos a a) a, mul_pos (mul_pos a a) (sub_pos.2 b),
        mul_pos (mul_pos (mul_pos a a) a) (sub_pos.2 b)]
  have := key (Set.mem_Icc.2 ⟨le_refl 0, by norm_num⟩) (Set.mem_Icc.2 ⟨h0, h2⟩) h0
  simp only [zero_mul, zero_div, add_zero, Real.log_one, sub_zero] at this
  linarith

/-- The lower limit of AS 5.1.20 is below the second convergent. -/
theorem limit0_le {x : ℝ} (hx : 1 ≤ x) : 0.5 * Real.log (1 + 2.0 / x) ≤ (x + 3) / (x ^ 2 + 4 * x + 2) := by
  have hx0 : 0 < x := by linarith
  have e1 : (2.0 : ℝ) / x = 2 / x := by norm_num
  have h := log_le_pade (y := 2 / x) (by positivity) (by rw [div_le_iff₀ hx0]; linarith)
  have e : (2 / x) * (2 + 3 * (2 / x)) / (2 + 4 * (2 / x) + (2 / x) ^ 2) = 2 * ((x + 3) / (x ^ 2 + 4 * x + 2)) := by
    have : x ^ 2 + 4 * x + 2 ≠ 0 := by positivity
    have : 2 + 4 * (2 / x) + (2 / x) ^ 2 ≠ 0 := by positivity
    field_simp
  rw [e1]
  rw [e] at h
  linarith

theorem le_limit1 {x : ℝ} (hx : 1 ≤ x) : (x + 1) / (x * (x + 2)) ≤ Real.log (1 + 1.0 / x) := by
  have hx0 : 0 < x := by linarith
  have e1 : (1.0 : ℝ) / x = 1 / x := by norm_num
  have h := Real.le_log_one_add_of_nonneg (show 0 ≤ 1 / x by positivity)
  rw [e1]
  refine le_trans ?_ h
  have e : 2 * (1 / x) / (1 / x + 2) = 2 / (1 + 2 * x) := by field_simp
  rw [e, div_le_div_iff₀ (by positivity) (by positivity)]
  nlinarith

theorem fallback_limits {x : ℝ} (hx : 1 ≤ x) :
    0.5 * Real.log (1 + 2.0 / x) ≤ lentzFallback x ∧ lentzFallback x ≤ Real.log (1 + 1.0 / x) := by
  have h0 := limit0_le hx
  have h1 := le_limit1 hx
  have h2 : (x + 3) / (x ^ 2 + 4 * x + 2) ≤ (x + 1) / (x * (x + 2)) := by
    rw [div_le_div_iff₀ (by positivity) (by positivity)]
    nlinarith
  have e1 : (2.0 : ℝ) / x = 2 / x := by norm_num
  have e2 : (1.0 : ℝ) / x = 1 / x := by norm_num
  rw [e1] at h0 ⊢
  rw [e2] at h1 ⊢
  unfold lentzFallback
  constructor <;> linarith

theorem small_lower {x : ℝ} (h0 : 0 < x) (h1 : x ≤ 1) :
    0.5 * Real.log (1 + 2.0 / x) ≤ Real.exp x * (as53 x - Real.log x) := by
  have hL : 2 * (1 - x) / (1 + x) ≤ - Real.log x := by
    have h := Real.le_log_one_add_of_nonneg (show 0 ≤ (1 - x) / x from div_nonneg (by linarith) h0.le)
    have e : 1 + (1 - x) / x = x⁻¹ := by field_simp; ring
    have e2 : 2 * ((1 - x) / x) / ((1 - x) / x + 2) = 2 * (1 - x) / (1 + x) := by
      have e3 : (1 - x) / x + 2 = (1 + x) / x := by field_simp; ring
      rw [e3]
      field_simp
    rw [e, Real.log_inv, e2] at h
    exact h
  have hlog : Real.log (1 + 2.0 / x) = Real.log (2 + x) - Real.log x := by
    rw [← Real.log_div (by positivity) h0.ne']
    congr 1
    norm_num
    field_simp
    ring
  have h25 : Real.log 2.5 ≤ 0.9164 := by
    rw [Real.log_le_iff_le_exp (by norm_num)]
    have := Real.sum_le_exp_of_nonneg (show (0 : ℝ) ≤ 0.9164 by norm_num) 9
    simp only [Finset.sum_range_succ, Finset.sum_range_zero, Nat.factorial] at this
    refine le_trans ?_ this
    norm_num
  have hlog2 : Real.log (2 + x) ≤ 0.9164 + (0.4 * x - 0.2) := by
    have h := Real.log_le_sub_one_of_pos (show 0 < (2 + x) / 2.5 by positivity)
    rw [Real.log_div (by positivity) (by norm_num)] at h
    have e : (2 + x) / 2.5 - 1 = 0.4 * x - 0.2 := by norm_num; ring
    rw [e] at h
    linarith
  have hexp : 1 + x + x ^ 2 / 2 + x ^ 3 / 6 ≤ Real.exp x := by
    have := Real.sum_le_exp_of_nonneg h0.le 4
    simp only [Finset.sum_range_succ, Finset.sum_range_zero, Nat.factorial] at this
    norm_num at this
    linarith
  have ea : as53 x = 0.00107857 * x ^ 5 - 0.00976004 * x ^ 4 + 0.05519968 * x ^ 3 - 0.24991055 * x ^ 2
      + 0.99999193 * x - 0.57721566 := by unfold as53; ring
  set l := 2 * (1 - x) / (1 + x) with hl
  have hlx : l * (1 + x) = 2 * (1 - x) := by rw [hl]; field_simp
  have hpos : 0 ≤ l + as53 x := by
    have key : ∀ y : ℝ, 0 ≤ y → 0 ≤
      (71139217 / 50000000) * x ^ 0 * y ^ 6 + (695948231 / 100000000) * x ^ 1 * y ^ 5
        + (1420572783 / 100000000) * x ^ 2 * y ^ 4 + (309781283 / 20000000) * x ^ 3 * y ^ 3
        + (953132311 / 100000000) * x ^ 4 * y ^ 2 + (314897811 / 100000000) * x ^ 5 * y ^ 1
        + (21938393 / 50000000) * x ^ 6 * y ^ 0 := fun y hy => by positivity
    have k := key (1 - x) (by linarith)
    have e : (l + as53 x) * (1 + x) = 2 * (1 - x) + as53 x * (1 + x) := by linear_combination hlx
    have : 0 ≤ (l + as53 x) * (1 + x) := by rw [e, ea]; linarith
    exact nonneg_of_mul_nonneg_left this (by linarith)
  have hP : 0.5 * (0.9164 + (0.4 * x - 0.2)) ≤ (1 + x + x ^ 2 / 2 + x ^ 3 / 6) * (l + as53 x) - 0.5 * l := by
    have key : ∀ y : ℝ, 0 ≤ y → 0 ≤
      (3229217 / 50000000) * x ^ 0 * y ^ 9 + (86861967 / 100000000) * x ^ 1 * y ^ 8
        + (215408547 / 50000000) * x ^ 2 * y ^ 7 + (6758891849 / 600000000) * x ^ 3 * y ^ 6
        + (10551181361 / 600000000) * x ^ 4 * y ^ 5 + (3427772851 / 200000000) * x ^ 5 * y ^ 4
        + (6247877083 / 600000000) * x ^ 6 * y ^ 3 + (2259907603 / 600000000) * x ^ 7 * y ^ 2
        + (72109819 / 100000000) * x ^ 8 * y ^ 1 + (1005893 / 18750000) * x ^ 9 * y ^ 0 := fun y hy => by positivity
    have k := key (1 - x) (by linarith)
    have e : ((1 + x + x ^ 2 / 2 + x ^ 3 / 6) * (l + as53 x) - 0.5 * l - 0.5 * (0.9164 + (0.4 * x - 0.2))) * (1 + x)
        = (1 + x + x ^ 2 / 2 + x ^ 3 / 6) * (2 * (1 - x) + as53 x * (1 + x)) - (1 - x)
          - 0.5 * (0.9164 + (0.4 * x - 0.2)) * (1 + x) := by
      linear_combination (1 + x + x ^ 2 / 2 + x ^ 3 / 6 - 0.5) * hlx
    have h : 0 ≤ ((1 + x + x ^ 2 / 2 + x ^ 3 / 6) * (l + as53 x) - 0.5 * l
        - 0.5 * (0.9164 + (0.4 * x - 0.2))) * (1 + x) := by rw [e, ea]; linarith
    linarith [nonneg_of_mul_nonneg_left h (by linarith)]
  rw [hlog]
  nlinarith [mul_le_mul_of_nonneg_right hexp hpos, mul_le_mul_of_nonneg_left hL (show 0 ≤ Real.exp x - 0.5 by nlinarith [Real.add_one_le_exp x])]

theorem small_upper {x : ℝ} (h0 : 0 < x) (h1 : x ≤ 1) :
    Real.exp x * (as53 x - Real.log x) ≤ Real.log (1 + 1.0 / x) := by
  have hL : - Real.log x ≤ (1 - x ^ 2) / (2 * x) := by
    have h := Real.self_le_sinh_iff.2 (show 0 ≤ - Real.log x by
      have := Real.log_nonpos h0.le h1
      linarith)
    rw [← Real.log_inv, Real.sinh_log (by positivity), Real.log_inv] at h
    refine le_trans h (le_of_eq ?_)
    field_simp
  have hlog : Real.log (1 + 1.0 / x) = Real.log (1 + x) - Real.log x := by
    rw [← Real.log_div (by positivity) h0.ne']
    congr 1
    norm_num
    field_simp
    ring
  have hlog2 : 2 * x / (x + 2) ≤ Real.log (1 + x) := Real.le_log_one_add_of_nonneg h0.le
  have hexp : Real.exp x ≤ 1 + x + x ^ 2 / 2 + x ^ 3 / 6 + x ^ 4 * (5 / 96) := by
    have := Real.exp_bound' h0.le h1 (show 0 < 4 by norm_num)
    simp only [Finset.sum_range_succ, Finset.sum_range_zero, Nat.factorial] at this
    norm_num at this
    linarith
  have ea : as53 x = 0.00107857 * x ^ 5 - 0.00976004 * x ^ 4 + 0.05519968 * x ^ 3 - 0.24991055 * x ^ 2
      + 0.99999193 * x - 0.57721566 := by unfold as53; ring
  set l := (1 - x ^ 2) / (2 * x) with hl
  have hlx : l * x = (1 - x ^ 2) / 2 := by rw [hl]; field_simp
  have hpos : 0 ≤ l + as53 x := by
    have key : ∀ y : ℝ, 0 ≤ y → 0 ≤
      (1 / 2) * x ^ 0 * y ^ 6 + (121139217 / 50000000) * x ^ 1 * y ^ 5 + (511391363 / 100000000) * x ^ 2 * y ^ 4
        + (597790057 / 100000000) * x ^ 3 * y ^ 3 + (403326301 / 100000000) * x ^ 4 * y ^ 2
        + (146479709 / 100000000) * x ^ 5 * y ^ 1 + (21938393 / 100000000) * x ^ 6 * y ^ 0 := fun y hy => by positivity
    have k := key (1 - x) (by linarith)
    have e : (l + as53 x) * x = (1 - x ^ 2) / 2 + as53 x * x := by linear_combination hlx
    have : 0 ≤ (l + as53 x) * x := by rw [e, ea]; linarith
    exact nonneg_of_mul_nonneg_left this h0
  have hP : (1 + x + x ^ 2 / 2 + x ^ 3 / 6 + x ^ 4 * (5 / 96)) * (l + as53 x) - l ≤ 2 * x / (x + 2) := by
    have key : ∀ y : ℝ, 0 ≤ y → 0 ≤
      (3860783 / 25000000) * x ^ 1 * y ^ 10 + (3556213 / 1562500) * x ^ 2 * y ^ 9
        + (3831596233 / 300000000) * x ^ 3 * y ^ 8 + (968936381 / 25000000) * x ^ 4 * y ^ 7
        + (174012820127 / 2400000000) * x ^ 5 * y ^ 6 + (212448227209 / 2400000000) * x ^ 6 * y ^ 5
        + (689726654809 / 9600000000) * x ^ 7 * y ^ 4 + (368315014007 / 9600000000) * x ^ 8 * y ^ 3
        + (123989979179 / 9600000000) * x ^ 9 * y ^ 2 + (7951815457 / 3200000000) * x ^ 10 * y ^ 1
        + (674079427 / 3200000000) * x ^ 11 * y ^ 0 := fun y hy => by positivity
    have k := key (1 - x) (by linarith)
    have e : ((1 + x + x ^ 2 / 2 + x ^ 3 / 6 + x ^ 4 * (5 / 96)) * (l + as53 x) - l) * (x + 2) * x
        = (1 + x + x ^ 2 / 2 + x ^ 3 / 6 + x ^ 4 * (5 / 96)) * ((1 - x ^ 2) / 2 + as53 x * x) * (x + 2)
          - (1 - x ^ 2) / 2 * (x + 2) := by
      linear_combination ((1 + x + x ^ 2 / 2 + x ^ 3 / 6 + x ^ 4 * (5 / 96)) * (x + 2) - (x + 2)) * hlx
    have h : ((1 + x + x ^ 2 / 2 + x ^ 3 / 6 + x ^ 4 * (5 / 96)) * (l + as53 x) - l) * (x + 2) * x ≤ 2 * x * x := by
      rw [e, ea]; linarith
    rw [le_div_iff₀ (by linarith)]
    exact le_of_mul_le_mul_right h h0
  rw [hlog]
  nlinarith [mul_le_mul_of_nonneg_right hexp hpos, mul_le_mul_of_nonneg_left hL (show 0 ≤ Real.exp x - 1 by nlinarith [Real.add_one_le_exp x])]

/-! ## C130 -/

/-- **C130** For every positive argument the value lies between the limits of Abramowitz and Stegun 5.1.20 for
exp(x) E1(x). -/
theorem C130_limits {x : ℝ} (hx : 0 < x) : ∃ v, deBoerD x = .ok (some v) ∧
    1 / 2 * Real.log (1 + 2 / x) ≤ v ∧ v ≤ Real.log (1 + 1 / x) := by
  have e1 : (2.0 : ℝ) / x = 2 / x := by norm_num
  have e2 : (1.0 : ℝ) / x = 1 / x := by norm_num
  have e3 : (0.5 : ℝ) = 1 / 2 := by norm_num
  unfold deBoerD
  rw [if_neg (not_lt.2 hx.le)]
  by_cases h1 : x > 1
  · rw [if_pos h1]
    obtain ⟨d, hd, h⟩ := deBoerCF_limits h1 1.0e-7 100
    refine ⟨d, by rw [hd]; rfl, ?_⟩
    rw [← e1, ← e2, ← e3]
    rcases h with rfl | ⟨ha, hb⟩
    · exact fallback_limits h1.le
    · exact ⟨le_trans (limit0_le h1.le) ha, le_trans hb (le_limit1 h1.le)⟩
  · rw [if_neg h1]
    refine ⟨Real.exp x * (as53 x - Real.log x), ?_, ?_, ?_⟩
    · unfold AS_5_1_53
      rw [if_neg h1]
      simp only [Outcome.ok_bind, if_neg hx.ne']
      rfl
    · rw [← e1, ← e3]; exact small_lower hx (not_lt.1 h1)
    · rw [← e2]; exact small_upper hx (not_lt.1 h1)

/-- **C130** A build with NDEBUG and a build without it return the same for every argument: the check of the limits
never replaces the value, nor throws. -/
theorem C130_builds_agree (x : ℝ) : deBoerDDebug x = deBoerD x := by
  rcases lt_trichotomy x 0 with h | h | h
  · unfold deBoerDDebug deBoerD
    rw [if_pos h, if_pos h]
  · subst h
    unfold deBoerDDebug deBoerD
    rw [if_neg (lt_irrefl _), if_neg (lt_irrefl _), if_neg (by norm_num), if_neg (by norm_num)]
    simp
  · obtain ⟨v, hv, hlo, hhi⟩ := C130_limits h
    have hc : checkLimits x v = .ok (some v) := by
      unfold checkLimits
      rw [if_neg]
      · rfl
      · have e1 : (2.0 : ℝ) / x = 2 / x := by norm_num
        have e2 : (1.0 : ℝ) / x = 1 / x := by norm_num
        have e3 : (0.5 : ℝ) = 1 / 2 := by norm_num
        rw [e1, e2, e3]
        push Not
        exact ⟨hlo, hhi⟩
    unfold deBoerD at hv ⊢
    unfold deBoerDDebug
    rw [if_neg (not_lt.2 h.le)] at hv ⊢
    rw [if_neg (not_lt.2 h.le)]
    by_cases h1 : x > 1
    · rw [if_pos h1] at hv ⊢
      rw [if_pos h1]
      obtain ⟨d, hd⟩ := C48_continued_fraction_bounds h1 1.0e-7 100
      rw [hd.1] at hv ⊢
      have : d = v := by injection hv with hv; injection hv
      subst this
      exact hc
    · rw [if_neg h1] at hv ⊢
      rw [if_neg h1]
      unfold AS_5_1_53 at hv ⊢
      rw [if_neg h1] at hv ⊢
      simp only [Outcome.ok_bind, if_neg h.ne'] at hv ⊢
      have : Real.exp x * (as53 x - Real.log x) = v := by injection hv with hv; injection hv
      rw [this, hc]
      rfl

/-- The hypothesis is met, on either side of 1. -/
example : ∃ v, deBoerD 3 = .ok (some v) ∧ 1 / 2 * Real.log (1 + 2 / 3) ≤ v ∧ v ≤ Real.log (1 + 1 / 3) :=
  C130_limits (by norm_num)
example : ∃ v, deBoerD 0.5 = .ok (some v) ∧ 1 / 2 * Real.log (1 + 2 / 0.5) ≤ v ∧ v ≤ Real.log (1 + 1 / 0.5) :=
  C130_limits (by norm_num)

end MathFn
end Fisx
