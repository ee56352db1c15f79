import Verif.MathEn
import Mathlib.Analysis.Calculus.DSlope

/-!
# The exponential integral at negative arguments (C133)

For a negative argument E1 is the Cauchy principal value of the integral of exp(-t)/t from x to infinity.
-/

set_option linter.unusedSectionVars false

namespace Fisx
namespace MathFn

open MeasureTheory Set Filter Topology

/-- (exp(-t) - 1)/t, continued by -1 at 0. -/
noncomputable def eSlope : ℝ → ℝ := dslope (fun t : ℝ => Real.exp (-t)) 0

theorem eSlope_continuous : Continuous eSlope := by
  have hd : Differentiable ℝ (fun t : ℝ => Real.exp (-t)) := by fun_prop
  rw [continuous_iff_continuousAt]
  intro x
  by_cases hx : x = 0
  · subst hx
    exact continuousAt_dslope_same.2 (hd 0)
  · exact (continuousAt_dslope_of_ne hx).2 (hd x).continuousAt

theorem eSlope_of_ne {t : ℝ} (ht : t ≠ 0) : eSlope t = (Real.exp (-t) - 1) / t := by
  unfold eSlope
  rw [dslope_of_ne _ ht, slope_def_field]
  simp

/-- E1(x) + log|x|: it has no singularity. -/
noncomputable def ePhi (x : ℝ) : ℝ := trueE1 1 + ∫ t in x..1, eSlope t

/-- The exponential integral for all arguments but 0. -/
noncomputable def pvE1 (x : ℝ) : ℝ := ePhi x - Real.log x

theorem ePhi_hasDeriv (x : ℝ) : HasDerivAt ePhi (-eSlope x) x := by
  have h := intervalIntegral.integral_hasDerivAt_left (a := x) (b := 1) (eSlope_continuous.intervalIntegrable x 1)
    (eSlope_continuous.stronglyMeasurableAtFilter volume (𝓝 x)) eSlope_continuous.continuousAt
  exact h.const_add (trueE1 1)

theorem ePhi_continuous : Continuous ePhi := by
  rw [continuous_iff_continuousAt]
  exact fun x => (ePhi_hasDeriv x).continuousAt

theorem pvE1_hasDeriv {x : ℝ} (hx : x ≠ 0) : HasDerivAt pvE1 (-(Real.exp (-x) / x)) x := by
  refine ((ePhi_hasDeriv x).sub (Real.hasDerivAt_log hx)).congr_deriv ?_
  rw [eSlope_of_ne hx]
  field_simp
  ring

theorem pvE1_pos {x : ℝ} (hx : 0 < x) : pvE1 x = trueE1 x := by
  unfold pvE1 ePhi
  have h1 : trueE1 x = (∫ t in x..1, Real.exp (-t) / t) + trueE1 1 :=
    (intervalIntegral.integral_interval_add_Ioi (integrable_exp_div hx) (integrable_exp_div one_pos)).symm
  have hmem : ∀ t ∈ uIcc x 1, t ≠ 0 := by
    intro t ht
    have := ht.1
    have h2 : 0 < min x 1 := lt_min hx one_pos
    exact (lt_of_lt_of_le h2 this).ne'
  have hi : IntervalIntegrable (fun t : ℝ => t⁻¹) volume x 1 := by
    apply ContinuousOn.intervalIntegrable
    intro t ht
    exact (continuousAt_inv₀ (hmem t ht)).continuousWithinAt
  have h2 : (∫ t in x..1, Real.exp (-t) / t) = (∫ t in x..1, eSlope t) + ∫ t in x..1, t⁻¹ := by
    rw [← intervalIntegral.integral_add (eSlope_continuous.intervalIntegrable x 1) hi]
    apply intervalIntegral.integral_congr
    intro t ht
    have := hmem t ht
    simp only
    rw [eSlope_of_ne this]
    field_simp
    ring
  rw [h1, h2, integral_inv_of_pos hx one_pos, Real.log_div one_ne_zero hx.ne', Real.log_one]
  ring

/-- `pvE1` is the principal value: remove a symmetric neighbourhood of 0 and let it shrink. -/
theorem pvE1_principal {x : ℝ} (hx : x < 0) :
    Tendsto (fun e : ℝ => (∫ t in x..(-e), Real.exp (-t) / t) + ∫ t in Ioi e, Real.exp (-t) / t)
      (𝓝[>] 0) (𝓝 (pvE1 x)) := by
  have key : ∀ e : ℝ, 0 < e → e < -x →
      (∫ t in x..(-e), Real.exp (-t) / t) + (∫ t in Ioi e, Real.exp (-t) / t) = pvE1 x - ePhi (-e) + ePhi e := by
    intro e he hex
    have h1 : (∫ t in x..(-e), Real.exp (-t) / t) = - pvE1 (-e) - (- pvE1 x) := by
      apply intervalIntegral.integral_eq_sub_of_hasDerivAt (f := fun t => - pvE1 t)
      · intro t ht
        rw [uIcc_of_le (by linarith)] at ht
        have : t ≠ 0 := by have := ht.2; intro h; linarith
        exact (pvE1_hasDeriv this).neg.congr_deriv (by ring)
      · apply ContinuousOn.intervalIntegrable
        rw [uIcc_of_le (by linarith)]
        intro t ht
        have : t ≠ 0 := by have := ht.2; intro h; linarith
        exact ((Real.continuous_exp.comp continuous_neg).continuousAt.div continuousAt_id this).continuousWithinAt
    have h2 : (∫ t in Ioi e, Real.exp (-t) / t) = pvE1 e := (pvE1_pos he).symm
    rw [h1, h2]
    unfold pvE1
    rw [Real.log_neg_eq_log]
    ring
  have hc : Continuous (fun e : ℝ => pvE1 x - ePhi (-e) + ePhi e) := by
    have := ePhi_continuous
    fun_prop
  have ht := hc.tendsto 0
  simp only [neg_zero, sub_add_cancel] at ht
  refine (ht.mono_left nhdsWithin_le_nhds).congr' ?_
  have : Ioo (0 : ℝ) (-x) ∈ 𝓝[>] (0 : ℝ) := Ioo_mem_nhdsGT (by linarith)
  filter_upwards [this] with e he
  exact (key e he.1 he.2).symm

/-- The value at 0 is the opposite of the Euler constant. -/
theorem ePhi_zero : |ePhi 0 + 0.577215664901532860| ≤ 0.000000003 := by
  have h1 : ∀ x : ℝ, 0 < x → x ≤ 1 → |ePhi x - e1Poly x + 0.5772156649| ≤ 0.0000000028 := by
    intro x h0 h1
    have hs := (trueE1_split h0 h1).1
    have ho := trueE1_one.1
    have hp := pvE1_pos h0
    unfold pvE1 at hp
    rw [← hp] at hs
    rw [abs_le] at hs ho ⊢
    norm_num at hs ho ⊢
    constructor <;> linarith
  have hc : Continuous (fun x : ℝ => |ePhi x - e1Poly x + 0.5772156649|) := by
    have := ePhi_continuous
    unfold e1Poly
    fun_prop
  have ht := (hc.tendsto 0).mono_left (nhdsWithin_le_nhds (s := Ioi 0))
  have h2 : |ePhi 0 - e1Poly 0 + 0.5772156649| ≤ 0.0000000028 := by
    refine le_of_tendsto ht ?_
    have : Ioo (0 : ℝ) 1 ∈ 𝓝[>] (0 : ℝ) := Ioo_mem_nhdsGT one_pos
    filter_upwards [this] with x hx
    exact h1 x hx.1 hx.2.le
  have h3 : e1Poly 0 = 0 := by unfold e1Poly; norm_num
  rw [h3, abs_le] at h2
  rw [abs_le]
  norm_num at h2 ⊢
  constructor <;> linarith

/-- The remainder of the exponential series. -/
theorem exp_remainder (n : Nat) : ∀ s : ℝ, 0 ≤ s →
    Real.exp s ≤ (∑ k ∈ Finset.range n, s ^ k / (k.factorial : ℝ)) + s ^ n / (n.factorial : ℝ) * Real.exp s := by
  induction n with
  | zero => intro s _; simp
  | succ n ih =>
    intro s hs
    let G : ℝ → ℝ := fun s => (∑ k ∈ Finset.range (n + 1), s ^ k / (k.factorial : ℝ))
      + s ^ (n + 1) / ((n + 1).factorial : ℝ) * Real.exp s - Real.exp s
    have hsum : ∀ s : ℝ, HasDerivAt (fun s : ℝ => ∑ k ∈ Finset.range (n + 1), s ^ k / (k.factorial : ℝ))
        (∑ k ∈ Finset.range n, s ^ k / (k.factorial : ℝ)) s := by
      intro s
      have h := HasDerivAt.fun_sum (u := Finset.range (n + 1)) (A := fun (k : Nat) (s : ℝ) => s ^ k / (k.factorial : ℝ))
        (A' := fun k => (k : ℝ) * s ^ (k - 1) / (k.factorial : ℝ)) (x := s)
        (fun k _ => (hasDerivAt_pow k s).div_const _)
      refine h.congr_deriv ?_
      rw [Finset.sum_range_succ']
      simp only [Nat.cast_zero, zero_mul, zero_div, add_zero, Nat.add_sub_cancel]
      apply Finset.sum_congr rfl
      intro k _
      rw [Nat.factorial_succ]
      push_cast
      have : (k.factorial : ℝ) ≠ 0 := by exact_mod_cast k.factorial_ne_zero
      have : (k : ℝ) + 1 ≠ 0 := by positivity
      field_simp
    have hG : ∀ s : ℝ, HasDerivAt G ((∑ k ∈ Finset.range n, s ^ k / (k.factorial : ℝ))
        + (s ^ n / (n.factorial : ℝ) * Real.exp s + s ^ (n + 1) / ((n + 1).factorial : ℝ) * Real.exp s) - Real.exp s) s := by
      intro s
      have h2 := ((hasDerivAt_pow (n + 1) s).div_const ((n + 1).factorial : ℝ)).mul (Real.hasDerivAt_exp s)
      refine (((hsum s).add h2).sub (Real.hasDerivAt_exp s)).congr_deriv ?_
      rw [Nat.factorial_succ]
      push_cast
      have : (n.factorial : ℝ) ≠ 0 := by exact_mod_cast n.factorial_ne_zero
      have : (n : ℝ) + 1 ≠ 0 := by positivity
      field_simp
    have hmono : MonotoneOn G (Ici 0) := by
      apply monotoneOn_of_deriv_nonneg (convex_Ici 0)
      · exact fun s _ => (hG s).continuousAt.continuousWithinAt
      · exact fun s _ => (hG s).differentiableAt.differentiableWithinAt
      · intro t ht
        rw [interior_Ici] at ht
        have ht0 : (0 : ℝ) < t := ht
        rw [(hG t).deriv]
        have := ih t ht0.le
        have : 0 ≤ t ^ (n + 1) / ((n + 1).factorial : ℝ) * Real.exp t := by positivity
        linarith
    have h0 : G 0 = 0 := by
      simp only [G]
      rw [Finset.sum_range_succ']
      simp
    have := hmono (show (0 : ℝ) ∈ Ici 0 from self_mem_Ici) (show s ∈ Ici 0 from hs) hs
    rw [h0] at this
    simp only [G] at this
    linarith

/-- What the ten terms neglect. -/
theorem e1Terms_error {y : ℝ} (hy : 0 ≤ y) :
    y ^ 11 / 439084800 ≤ ePhi 0 - ePhi (-y) - e1Terms y ∧
    ePhi 0 - ePhi (-y) - e1Terms y ≤ Real.exp y * y ^ 11 / 439084800 := by
  have hd : ∀ s : ℝ, HasDerivAt (fun y => ePhi 0 - ePhi (-y) - e1Terms y) (-eSlope (-s) - e1Terms' s) s := by
    intro s
    have h1 := (ePhi_hasDeriv (-s)).comp s (hasDerivAt_neg s)
    refine (((h1.const_sub (ePhi 0))).sub (e1Terms_hasDeriv s)).congr_deriv ?_
    ring
  have hder : ∀ s : ℝ, 0 < s → -eSlope (-s) - e1Terms' s = Real.exp s / s - (e1Terms' s + 1 / s) := by
    intro s hs
    rw [eSlope_of_ne (neg_ne_zero.2 hs.ne'), neg_neg]
    field_simp
    ring
  have hp : ∀ s : ℝ, HasDerivAt (fun y : ℝ => y ^ 11 / 439084800) (s ^ 10 / 39916800) s := by
    intro s
    refine ((hasDerivAt_pow 11 s).div_const 439084800).congr_deriv ?_
    norm_num
    ring
  have hq : ∀ s : ℝ, HasDerivAt (fun y : ℝ => Real.exp y * y ^ 11 / 439084800)
      (Real.exp s * s ^ 11 / 439084800 + Real.exp s * s ^ 10 / 39916800) s := by
    intro s
    refine (((Real.hasDerivAt_exp s).mul (hasDerivAt_pow 11 s)).div_const 439084800).congr_deriv ?_
    norm_num
    ring
  have h0 : ePhi 0 - ePhi (-0) - e1Terms 0 = 0 := by
    rw [neg_zero]
    unfold e1Terms
    norm_num
  have low : MonotoneOn (fun y => (ePhi 0 - ePhi (-y) - e1Terms y) - y ^ 11 / 439084800) (Ici 0) := by
    apply monotoneOn_of_deriv_nonneg (convex_Ici 0)
    · exact fun s _ => ((hd s).sub (hp s)).continuousAt.continuousWithinAt
    · exact fun s _ => ((hd s).sub (hp s)).differentiableAt.differentiableWithinAt
    · intro t ht
      rw [interior_Ici] at ht
      have h := ((hd t).sub (hp t)).deriv
      have e : (fun y => (ePhi 0 - ePhi (-y) - e1Terms y) - y ^ 11 / 439084800)
        = ((fun y => ePhi 0 - ePhi (-y) - e1Terms y) - fun y : ℝ => y ^ 11 / 439084800) := rfl
      rw [e, h, hder t ht]
      have := (e1Terms_tail (show (0 : ℝ) < t from ht)).1
      linarith
  have high : MonotoneOn (fun y => Real.exp y * y ^ 11 / 439084800 - (ePhi 0 - ePhi (-y) - e1Terms y)) (Ici 0) := by
    apply monotoneOn_of_deriv_nonneg (convex_Ici 0)
    · exact fun s _ => ((hq s).sub (hd s)).continuousAt.continuousWithinAt
    · exact fun s _ => ((hq s).sub (hd s)).differentiableAt.differentiableWithinAt
    · intro t ht
      rw [interior_Ici] at ht
      have ht0 : (0 : ℝ) < t := ht
      have h := ((hq t).sub (hd t)).deriv
      have e : (fun y => Real.exp y * y ^ 11 / 439084800 - (ePhi 0 - ePhi (-y) - e1Terms y))
        = ((fun y : ℝ => Real.exp y * y ^ 11 / 439084800) - fun y => ePhi 0 - ePhi (-y) - e1Terms y) := rfl
      rw [e, h, hder t ht0]
      have hr := exp_remainder 11 t ht0.le
      simp only [Finset.sum_range_succ, Finset.sum_range_zero, Nat.factorial] at hr
      norm_num at hr
      have hb : Real.exp t / t - (e1Terms' t + 1 / t) ≤ Real.exp t * t ^ 10 / 39916800 := by
        have e : Real.exp t / t - (e1Terms' t + 1 / t) = (Real.exp t - (1 + t * e1Terms' t)) / t := by
          field_simp
          ring
        rw [e, div_le_iff₀ ht0]
        unfold e1Terms'
        linarith
      have : 0 ≤ Real.exp t * t ^ 11 / 439084800 := by positivity
      linarith
  have l := low (show (0 : ℝ) ∈ Ici 0 from self_mem_Ici) (show y ∈ Ici 0 from hy) hy
  have u := high (show (0 : ℝ) ∈ Ici 0 from self_mem_Ici) (show y ∈ Ici 0 from hy) hy
  simp only [h0] at l u
  norm_num at l u
  constructor
  · linarith
  · linarith

/-- **C133** (partial) At every negative argument, E1 is the principal value plus the neglected terms of the series:
it is too large by at least |x|^11/(11 11!) - 3e-9 and at most exp(|x|) |x|^11/(11 11!) + 3e-9. Missing: that this is
small, it is not, see `C133_negative_violated`. -/
theorem C133_principal_value_partial {x : ℝ} (hx : x < 0) :
    ∃ v I, E1 x = .ok v ∧
      Tendsto (fun e : ℝ => (∫ t in x..(-e), Real.exp (-t) / t) + ∫ t in Ioi e, Real.exp (-t) / t) (𝓝[>] 0) (𝓝 I) ∧
      |x| ^ 11 / 439084800 - 3e-9 ≤ v - I ∧ v - I ≤ Real.exp |x| * |x| ^ 11 / 439084800 + 3e-9 := by
  refine ⟨_, pvE1 x, E1_negative hx, pvE1_principal hx, ?_⟩
  have h := e1Terms_error (y := -x) (by linarith)
  have g := abs_le.1 ePhi_zero
  rw [neg_neg] at h
  rw [abs_of_neg hx]
  unfold pvE1
  rw [Real.log_neg_eq_log]
  norm_num at h g ⊢
  constructor <;> linarith [h.1, h.2, g.1, g.2]

/-- The error of `deBoerD` at an argument that is not 0. -/
noncomputable def errD (x : ℝ) : ℝ := if 0 < x then 1.2e-6 / x else 3e-9 + |x| ^ 11 / 439084800

/-- `deBoerD` is exp(x) times the principal value, up to `errD`. -/
theorem deBoerD_pv {x : ℝ} (hx : x ≠ 0) :
    ∃ v, deBoerD x = .ok (some v) ∧ |v - Real.exp x * pvE1 x| ≤ errD x := by
  unfold errD
  rcases lt_or_gt_of_ne hx with h | h
  · rw [if_neg (not_lt.2 h.le)]
    obtain ⟨l, u⟩ := e1Terms_error (y := -x) (by linarith)
    rw [neg_neg] at l u
    have g := abs_le.1 ePhi_zero
    refine ⟨Real.exp x * (-0.577215664901532860 - e1Terms (-x) - Real.log (-x)), ?_, ?_⟩
    · unfold deBoerD
      rw [if_pos h, E1_negative h]
      rfl
    · rw [← mul_sub, abs_mul, abs_of_pos (Real.exp_pos x), abs_of_neg h]
      have hE := Real.exp_pos x
      have hE1 : Real.exp x ≤ 1 := Real.exp_le_one_iff.2 h.le
      have hy : 0 ≤ (-x) ^ 11 / 439084800 := by have : 0 ≤ -x := by linarith
                                                positivity
      have hb : |-0.577215664901532860 - e1Terms (-x) - Real.log (-x) - pvE1 x|
          ≤ 0.000000003 + Real.exp (-x) * (-x) ^ 11 / 439084800 := by
        unfold pvE1
        rw [Real.log_neg_eq_log, abs_le]
        norm_num at g ⊢
        have : 0 ≤ Real.exp (-x) * (-x) ^ 11 / 439084800 := by have : 0 ≤ -x := by linarith
                                                               positivity
        constructor <;> linarith [g.1, g.2]
      have e : Real.exp x * Real.exp (-x) = 1 := by rw [← Real.exp_add]; simp
      calc _ ≤ Real.exp x * (0.000000003 + Real.exp (-x) * (-x) ^ 11 / 439084800) :=
            mul_le_mul_of_nonneg_left hb hE.le
        _ = Real.exp x * 0.000000003 + (Real.exp x * Real.exp (-x)) * ((-x) ^ 11 / 439084800) := by ring
        _ ≤ _ := by rw [e]; norm_num; linarith
  · rw [if_pos h, pvE1_pos h]
    obtain ⟨D, hD, hb⟩ := C131_deBoerD_accurate h
    refine ⟨D, hD, le_trans hb ?_⟩
    rw [div_eq_mul_one_div]
    apply mul_le_mul_of_nonneg_left _ (by norm_num)
    have := mul_le_mul_of_nonneg_left (trueE1_bounds h).2 (Real.exp_pos x).le
    rw [← mul_assoc, ← Real.exp_add] at this
    simpa [trueE1] using this

/-- The hypothesis of the theorem is met. -/
example : (-5 : ℝ) < 0 := by norm_num

end MathFn
end Fisx
