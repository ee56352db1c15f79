import Verif.MathFnProps
import Verif.PolyCheck
import Mathlib.Analysis.SpecialFunctions.Gaussian.GaussianIntegral
import Mathlib.Analysis.Real.Pi.Bounds
import Mathlib.Analysis.Calculus.Deriv.MeanValue

/-!
# Accuracy of erf and erfc (C140)

The error function is the Gaussian integral. A polynomial `erfFit` of degree 24 takes the place of the one of degree 9
of the code: the derivative of `t exp(-z² + erfFit t)`, `t = 2 / (2 + z)`, is compared with the one of the Gaussian
integral for all `z`, and `erfFit` with the polynomial of the code for all `t`, with `Verif.PolyCheck`.
-/

set_option linter.unusedSectionVars false

namespace Fisx
namespace MathFn

open MeasureTheory Set Filter Topology

/-! ## Specification -/

/-- The error function. -/
noncomputable def gaussErf (x : ℝ) : ℝ := 2 / √Real.pi * ∫ u in (0)..x, Real.exp (-u ^ 2)

/-- The complementary error function. -/
noncomputable def gaussErfc (x : ℝ) : ℝ := 2 / √Real.pi * ∫ u in Ioi x, Real.exp (-u ^ 2)

theorem gauss_integrable : Integrable (fun u : ℝ => Real.exp (-u ^ 2)) := by
  have := integrable_exp_neg_mul_sq (b := 1) one_pos
  simpa using this

theorem gauss_half : 2 / √Real.pi * ∫ u in Ioi (0 : ℝ), Real.exp (-u ^ 2) = 1 := by
  have h := integral_gaussian_Ioi 1
  have e : (fun u : ℝ => Real.exp (-1 * u ^ 2)) = fun u : ℝ => Real.exp (-u ^ 2) := by
    funext u; congr 1; ring
  rw [e, div_one] at h
  rw [h]
  have : √Real.pi ≠ 0 := (Real.sqrt_pos.2 Real.pi_pos).ne'
  field_simp

/-- The two integrals are complementary. -/
theorem gaussErf_add (x : ℝ) : gaussErf x + gaussErfc x = 1 := by
  unfold gaussErf gaussErfc
  rw [← mul_add, intervalIntegral.integral_interval_add_Ioi gauss_integrable.integrableOn
    gauss_integrable.integrableOn]
  exact gauss_half

theorem gaussErf_neg (x : ℝ) : gaussErf (-x) = -gaussErf x := by
  unfold gaussErf
  have h := intervalIntegral.integral_comp_neg (fun u : ℝ => Real.exp (-u ^ 2)) (a := 0) (b := x)
  have e : (fun u : ℝ => Real.exp (-(-u) ^ 2)) = fun u : ℝ => Real.exp (-u ^ 2) := by
    funext u; congr 1; ring
  rw [e, neg_zero] at h
  rw [h, intervalIntegral.integral_symm]
  ring

theorem gaussErfc_pos (x : ℝ) : 0 < gaussErfc x := by
  unfold gaussErfc
  refine mul_pos (div_pos two_pos (Real.sqrt_pos.2 Real.pi_pos)) ?_
  rw [setIntegral_pos_iff_support_of_nonneg_ae]
  · have : Function.support (fun u : ℝ => Real.exp (-u ^ 2)) = univ := by
      ext u; simp [(Real.exp_pos _).ne']
    rw [this, univ_inter]
    simp
  · exact ae_of_all _ (fun u => (Real.exp_pos _).le)
  · exact gauss_integrable.integrableOn

theorem gaussErfc_hasDerivAt (x : ℝ) : HasDerivAt gaussErfc (-(2 / √Real.pi * Real.exp (-x ^ 2))) x := by
  have e : gaussErfc = fun x => 1 - gaussErf x := by
    funext y; have := gaussErf_add y; linarith
  rw [e]
  have hc : Continuous (fun u : ℝ => Real.exp (-u ^ 2)) := by fun_prop
  have h := (intervalIntegral.integral_hasDerivAt_right (hc.intervalIntegrable 0 x)
    hc.stronglyMeasurable.stronglyMeasurableAtFilter hc.continuousAt).const_mul (2 / √Real.pi)
  exact h.const_sub 1

theorem gaussErfc_tendsto : Tendsto gaussErfc atTop (𝓝 0) := by
  have e : gaussErfc = fun x => 1 - gaussErf x := by
    funext y; have := gaussErf_add y; linarith
  have h := (intervalIntegral_tendsto_integral_Ioi 0 gauss_integrable.integrableOn tendsto_id).const_mul
    (2 / √Real.pi)
  rw [gauss_half] at h
  rw [e]
  have := h.const_sub 1
  simpa [gaussErf] using this

/-! ## The polynomials -/

/-- A polynomial close to `log (erfc z exp(z²) / t)`. -/
def erfFit : List ℚ :=
  [-126551212348464578323/100000000000000000000, 50000000000024211513/50000000000000000000,
   37499999989855931899/100000000000000000000, 8333334184305228517/100000000000000000000,
   -859378814453957077/10000000000000000000, -3593485690557142253/25000000000000000000,
   -91994637924573047/1000000000000000000, 1611013739791939731/50000000000000000000,
   10656961782430568787/100000000000000000000, 1611318027933698991/5000000000000000000,
   -121884162875485317403/100000000000000000000, 540271469257684024223/100000000000000000000,
   -1065786169884099770321/50000000000000000000, 3196293672543046772031/50000000000000000000,
   -772016553792953961667/5000000000000000000, 30037128560181997651111/100000000000000000000,
   -11494489078574517316793/25000000000000000000, 27288389620166034976059/50000000000000000000,
   -498779102045889524603/1000000000000000000, 17405756968969360762823/50000000000000000000,
   -9133281871165662780903/50000000000000000000, 3497621350529401928921/50000000000000000000,
   -462536215914310066321/25000000000000000000, 151378573187885009119/50000000000000000000,
   -23137973799996915999/100000000000000000000]

/-- `4 - 4 t + t² / 2 + t³ erfFit'(t) / 2`. -/
def erfQ : List ℚ := PolyQ.add [4, -4, 1/2] (0 :: 0 :: 0 :: PolyQ.scale (1/2) (PolyQ.deriv erfFit))

/-- The derivative of `exp(erfFit t) erfQ(t)` divided by the exponential. -/
def erfRes : List ℚ := PolyQ.add (PolyQ.mul (PolyQ.deriv erfFit) erfQ) (PolyQ.deriv erfQ)

/-- The coefficients of the code. -/
def erfCode : List ℚ :=
  [-126551223/100000000, 1562537/1562500, 935229/2500000, 4839209/50000000, -9314403/50000000,
   27886807/100000000, -56760199/50000000, 148851587/100000000, -82215223/100000000, 17087277/100000000]

/-- The coefficients of the published approximation (Numerical Recipes, `erfcc`): the third is 0.37409196. -/
def erfPublished : List ℚ :=
  [-126551223/100000000, 1562537/1562500, 9352299/25000000, 4839209/50000000, -9314403/50000000,
   27886807/100000000, -56760199/50000000, 148851587/100000000, -82215223/100000000, 17087277/100000000]

theorem erfPoly_eval (t : ℝ) : erfPoly t = PolyQ.eval erfCode t := by
  unfold erfPoly erfCode
  simp only [PolyQ.eval_cons, PolyQ.eval_nil]
  push_cast
  norm_num

theorem erfQ_pos {t : ℝ} (h0 : 0 < t) (h1 : t ≤ 1) : 0 < PolyQ.eval erfQ t := by
  have h : PolyQ.nonneg (PolyQ.add erfQ [-1]) 0 1 = true := by decide +kernel
  have := PolyQ.nonneg_spec h (by push_cast; exact h0) (by push_cast; exact h1)
  simp only [PolyQ.eval_add, PolyQ.eval_cons, PolyQ.eval_nil] at this
  push_cast at this
  linarith

theorem erfRes_small {t : ℝ} (h0 : 0 < t) (h1 : t ≤ 1) :
    |PolyQ.eval erfRes t| ≤ 1 / 10000000000 * PolyQ.eval erfQ t := by
  have ha : PolyQ.nonnegOn (PolyQ.add (PolyQ.scale (1/10000000000) erfQ) erfRes) 0 [1/2, 1] = true := by decide +kernel
  have hb : PolyQ.nonnegOn (PolyQ.add (PolyQ.scale (1/10000000000) erfQ) (PolyQ.scale (-1) erfRes)) 0 [1/2, 1] = true := by
    decide +kernel
  have h2 := PolyQ.nonnegOn_spec ha (x := t) (by push_cast; exact h0) ⟨1, by simp, by push_cast; exact h1⟩
  have h3 := PolyQ.nonnegOn_spec hb (x := t) (by push_cast; exact h0) ⟨1, by simp, by push_cast; exact h1⟩
  simp only [PolyQ.eval_add, PolyQ.eval_scale] at h2 h3
  push_cast at h2 h3
  rw [abs_le]
  constructor <;> linarith

theorem erfCode_fit {t : ℝ} (h0 : 0 < t) (h1 : t ≤ 1) :
    -(4335/10000000000) ≤ PolyQ.eval erfCode t - PolyQ.eval erfFit t ∧ PolyQ.eval erfCode t - PolyQ.eval erfFit t ≤ 1000/10000000000 := by
  have ha : PolyQ.nonnegOn (PolyQ.add [4335/10000000000] (PolyQ.add erfCode (PolyQ.scale (-1) erfFit))) 0
      [1/2, 3/4, 7/8, 15/16, 31/32, 125/128, 63/64, 1] = true := by decide +kernel
  have hb : PolyQ.nonnegOn (PolyQ.add [1000/10000000000] (PolyQ.scale (-1) (PolyQ.add erfCode (PolyQ.scale (-1) erfFit)))) 0
      [1/32, 1/16, 1/8, 1/4, 1/2, 1] = true := by decide +kernel
  have h2 := PolyQ.nonnegOn_spec ha (x := t) (by push_cast; exact h0) ⟨1, by simp, by push_cast; exact h1⟩
  have h3 := PolyQ.nonnegOn_spec hb (x := t) (by push_cast; exact h0) ⟨1, by simp, by push_cast; exact h1⟩
  simp only [PolyQ.eval_add, PolyQ.eval_scale, PolyQ.eval_cons, PolyQ.eval_nil] at h2 h3
  push_cast at h2 h3
  constructor <;> linarith

theorem erfPublished_fit {t : ℝ} (h0 : 0 < t) (h1 : t ≤ 1) :
    -(1075/10000000000) ≤ PolyQ.eval erfPublished t - PolyQ.eval erfFit t ∧ PolyQ.eval erfPublished t - PolyQ.eval erfFit t ≤ 1075/10000000000 := by
  have ha : PolyQ.nonnegOn (PolyQ.add [1075/10000000000] (PolyQ.add erfPublished (PolyQ.scale (-1) erfFit))) 0
      [1/16, 5/64, 3/32, 1/8, 1/4, 5/16, 3/8, 1/2, 3/4, 7/8, 1] = true := by decide +kernel
  have hb : PolyQ.nonnegOn (PolyQ.add [1075/10000000000] (PolyQ.scale (-1) (PolyQ.add erfPublished (PolyQ.scale (-1) erfFit)))) 0
      [1/32, 1/16, 1/8, 1/4, 1/2, 3/4, 1] = true := by decide +kernel
  have h2 := PolyQ.nonnegOn_spec ha (x := t) (by push_cast; exact h0) ⟨1, by simp, by push_cast; exact h1⟩
  have h3 := PolyQ.nonnegOn_spec hb (x := t) (by push_cast; exact h0) ⟨1, by simp, by push_cast; exact h1⟩
  simp only [PolyQ.eval_add, PolyQ.eval_scale, PolyQ.eval_cons, PolyQ.eval_nil] at h2 h3
  push_cast at h2 h3
  constructor <;> linarith

/-! ## The fit against the Gaussian integral -/

theorem PolyQ_eval_one (p : List ℚ) : PolyQ.eval p 1 = ((p.sum : ℚ) : ℝ) := by
  induction p with
  | nil => simp
  | cons c p ih => rw [PolyQ.eval_cons, ih, List.sum_cons]; push_cast; ring

theorem erfFit_one : PolyQ.eval erfFit 1 = 0 := by
  rw [PolyQ_eval_one, show erfFit.sum = 0 by decide +kernel]
  simp

/-- The value at 1 is that of `2 / √π`. -/
theorem erfQ_one : 2 / √Real.pi * (1 - 1 / 1000000000000) ≤ PolyQ.eval erfQ 1 ∧
    PolyQ.eval erfQ 1 ≤ 2 / √Real.pi * (1 + 1 / 1000000000000) := by
  have h1 : (11283791670954 / 10000000000000 : ℝ) ≤ PolyQ.eval erfQ 1 := by
    rw [PolyQ_eval_one]
    have : (11283791670954 / 10000000000000 : ℚ) ≤ erfQ.sum := by decide +kernel
    have h : (((11283791670954 / 10000000000000 : ℚ)) : ℝ) ≤ ((erfQ.sum : ℚ) : ℝ) := Rat.cast_le.2 this
    refine le_trans (le_of_eq ?_) h
    norm_num
  have h2 : PolyQ.eval erfQ 1 ≤ (11283791670956 / 10000000000000 : ℝ) := by
    rw [PolyQ_eval_one]
    have : erfQ.sum ≤ (11283791670956 / 10000000000000 : ℚ) := by decide +kernel
    have h : ((erfQ.sum : ℚ) : ℝ) ≤ (((11283791670956 / 10000000000000 : ℚ)) : ℝ) := Rat.cast_le.2 this
    refine le_trans h (le_of_eq ?_)
    norm_num
  have hpi := Real.pi_gt_d20
  have hpi2 := Real.pi_lt_d20
  have hs : 0 < √Real.pi := Real.sqrt_pos.2 Real.pi_pos
  have s1 : √Real.pi ≤ 17724538509056 / 10000000000000 := by
    rw [Real.sqrt_le_left (by norm_num)]
    refine hpi2.le.trans ?_
    norm_num
  have s2 : 17724538509055 / 10000000000000 ≤ √Real.pi := by
    rw [Real.le_sqrt' (by norm_num)]
    refine le_trans ?_ hpi.le
    norm_num
  constructor
  · refine le_trans ?_ h1
    rw [div_mul_eq_mul_div, div_le_iff₀ hs]
    refine le_trans ?_ (mul_le_mul_of_nonneg_left s2 (by norm_num))
    norm_num
  · refine le_trans h2 ?_
    rw [div_mul_eq_mul_div, le_div_iff₀ hs]
    refine le_trans (mul_le_mul_of_nonneg_left s1 (by norm_num)) ?_
    norm_num

/-- `exp(erfFit t) erfQ(t)`. -/
noncomputable def erfG (t : ℝ) : ℝ := Real.exp (PolyQ.eval erfFit t) * PolyQ.eval erfQ t

theorem erfG_hasDerivAt (t : ℝ) :
    HasDerivAt erfG (Real.exp (PolyQ.eval erfFit t) * PolyQ.eval erfRes t) t := by
  have h := (PolyQ.hasDerivAt_eval erfFit t).exp.mul (PolyQ.hasDerivAt_eval erfQ t)
  have e : Real.exp (PolyQ.eval erfFit t) * PolyQ.eval (PolyQ.deriv erfFit) t * PolyQ.eval erfQ t
      + Real.exp (PolyQ.eval erfFit t) * PolyQ.eval (PolyQ.deriv erfQ) t
      = Real.exp (PolyQ.eval erfFit t) * PolyQ.eval erfRes t := by
    unfold erfRes
    rw [PolyQ.eval_add, PolyQ.eval_mul]
    ring
  rw [← e]
  exact h

/-- `erfG` is `2 / √π` up to a small relative error. -/
theorem erfG_bounds {t : ℝ} (h0 : 0 < t) (h1 : t ≤ 1) :
    2 / √Real.pi * (1 - 2 / 10000000000) ≤ erfG t ∧ erfG t ≤ 2 / √Real.pi * (1 + 2 / 10000000000) := by
  set δ : ℝ := 1 / 10000000000 with hδ
  have hder : ∀ (c x : ℝ), HasDerivAt (fun y => erfG y * Real.exp (c * y))
      (Real.exp (c * x) * Real.exp (PolyQ.eval erfFit x) * (PolyQ.eval erfRes x + c * PolyQ.eval erfQ x)) x := by
    intro c x
    have h := (erfG_hasDerivAt x).mul ((hasDerivAt_id' x).const_mul c).exp
    have e : Real.exp (PolyQ.eval erfFit x) * PolyQ.eval erfRes x * Real.exp (c * x)
        + erfG x * (Real.exp (c * x) * (c * 1))
        = Real.exp (c * x) * Real.exp (PolyQ.eval erfFit x) * (PolyQ.eval erfRes x + c * PolyQ.eval erfQ x) := by
      unfold erfG
      ring
    rw [← e]
    exact h
  have hup : erfG t * Real.exp (δ * t) ≤ erfG 1 * Real.exp (δ * 1) := by
    refine monotoneOn_of_deriv_nonneg (convex_Icc t 1) (fun x _ => (hder δ x).continuousAt.continuousWithinAt)
      (fun x _ => (hder δ x).differentiableAt.differentiableWithinAt) ?_ (left_mem_Icc.2 h1) (right_mem_Icc.2 h1) h1
    intro x hx
    rw [interior_Icc] at hx
    rw [(hder δ x).deriv]
    have := erfRes_small (h0.trans hx.1) hx.2.le
    rw [abs_le] at this
    have : 0 ≤ PolyQ.eval erfRes x + δ * PolyQ.eval erfQ x := by rw [hδ]; linarith [this.1]
    positivity
  have hlo : erfG 1 * Real.exp (-δ * 1) ≤ erfG t * Real.exp (-δ * t) := by
    refine antitoneOn_of_deriv_nonpos (convex_Icc t 1) (fun x _ => (hder (-δ) x).continuousAt.continuousWithinAt)
      (fun x _ => (hder (-δ) x).differentiableAt.differentiableWithinAt) ?_ (left_mem_Icc.2 h1) (right_mem_Icc.2 h1) h1
    intro x hx
    rw [interior_Icc] at hx
    rw [(hder (-δ) x).deriv]
    have := erfRes_small (h0.trans hx.1) hx.2.le
    rw [abs_le] at this
    have : PolyQ.eval erfRes x + -δ * PolyQ.eval erfQ x ≤ 0 := by rw [hδ]; linarith [this.2]
    exact mul_nonpos_of_nonneg_of_nonpos (by positivity) this
  have hg1 : erfG 1 = PolyQ.eval erfQ 1 := by unfold erfG; rw [erfFit_one]; simp
  have hgt : 0 < erfG t := mul_pos (Real.exp_pos _) (erfQ_pos h0 h1)
  have hq : 0 < erfG 1 := by rw [hg1]; exact erfQ_pos one_pos le_rfl
  have hδ0 : 0 < δ := by norm_num [hδ]
  have e1 : 1 ≤ Real.exp (δ * t) := Real.one_le_exp (by positivity)
  have e2 : Real.exp (δ * 1) ≤ 1 + 11 / 10 * δ := by
    have h := Real.add_one_le_exp (-(δ * 1))
    rw [Real.exp_neg] at h
    have hp := Real.exp_pos (δ * 1)
    have h' : (1 - δ) * Real.exp (δ * 1) ≤ 1 := by
      have := mul_le_mul_of_nonneg_right h hp.le
      rw [inv_mul_cancel₀ hp.ne'] at this
      linarith
    have h3 : 0 < 1 - δ := by norm_num [hδ]
    have : (1 - δ) * Real.exp (δ * 1) ≤ (1 - δ) * (1 + 11 / 10 * δ) := by
      refine h'.trans ?_
      norm_num [hδ]
    exact le_of_mul_le_mul_left this h3
  have e3 : Real.exp (-δ * t) ≤ 1 := Real.exp_le_one_iff.2 (by nlinarith)
  have e4 : 1 - δ ≤ Real.exp (-δ * 1) := by
    have h := Real.add_one_le_exp (-δ * 1)
    linarith
  obtain ⟨q1, q2⟩ := erfQ_one
  rw [← hg1] at q1 q2
  have hk : 0 < 2 / √Real.pi := div_pos two_pos (Real.sqrt_pos.2 Real.pi_pos)
  generalize 2 / √Real.pi = κ at *
  constructor
  · calc κ * (1 - 2 / 10000000000) ≤ κ * (1 - 1 / 1000000000000) * (1 - δ) := by
          rw [mul_assoc]
          refine mul_le_mul_of_nonneg_left ?_ hk.le
          norm_num [hδ]
      _ ≤ erfG 1 * (1 - δ) := mul_le_mul_of_nonneg_right q1 (by norm_num [hδ])
      _ ≤ erfG 1 * Real.exp (-δ * 1) := mul_le_mul_of_nonneg_left e4 hq.le
      _ ≤ erfG t * Real.exp (-δ * t) := hlo
      _ ≤ erfG t * 1 := mul_le_mul_of_nonneg_left e3 hgt.le
      _ = erfG t := mul_one _
  · calc erfG t = erfG t * 1 := (mul_one _).symm
      _ ≤ erfG t * Real.exp (δ * t) := mul_le_mul_of_nonneg_left e1 hgt.le
      _ ≤ erfG 1 * Real.exp (δ * 1) := hup
      _ ≤ erfG 1 * (1 + 11 / 10 * δ) := mul_le_mul_of_nonneg_left e2 hq.le
      _ ≤ κ * (1 + 1 / 1000000000000) * (1 + 11 / 10 * δ) := mul_le_mul_of_nonneg_right q2 (by norm_num [hδ])
      _ ≤ κ * (1 + 2 / 10000000000) := by
          rw [mul_assoc]
          refine mul_le_mul_of_nonneg_left ?_ hk.le
          norm_num [hδ]

/-- The fit, as the code computes it. -/
noncomputable def fitErfc (z : ℝ) : ℝ :=
  1 / (1 + 0.5 * z) * Real.exp (-z * z + PolyQ.eval erfFit (1 / (1 + 0.5 * z)))

theorem fitErfc_hasDerivAt {z : ℝ} (hz : 0 ≤ z) :
    HasDerivAt fitErfc (-(Real.exp (-z ^ 2) * erfG (1 / (1 + 0.5 * z)))) z := by
  have hne : (1 + 0.5 * z) ≠ 0 := by positivity
  have ht : HasDerivAt (fun y : ℝ => 1 / (1 + 0.5 * y)) (-(1 / (1 + 0.5 * z)) ^ 2 / 2) z := by
    have h := (((hasDerivAt_id' z).const_mul (0.5 : ℝ)).const_add 1).inv hne
    have e : (fun y : ℝ => 1 / (1 + 0.5 * y)) = fun y => (1 + 0.5 * y)⁻¹ := by funext y; rw [one_div]
    rw [e]
    have e2 : -(1 / (1 + 0.5 * z)) ^ 2 / 2 = -(0.5 * 1) / (1 + 0.5 * z) ^ 2 := by
      field_simp
      norm_num
    rw [e2]
    exact h
  have hp := (PolyQ.hasDerivAt_eval erfFit (1 / (1 + 0.5 * z))).comp z ht
  have hsq : HasDerivAt (fun y : ℝ => -y * y) (-2 * z) z := by
    have h := (hasDerivAt_id' z).neg.mul (hasDerivAt_id' z)
    have e : -2 * z = -1 * z + -z * 1 := by ring
    rw [e]
    exact h
  have h := ht.mul (hsq.add hp).exp
  set t := 1 / (1 + 0.5 * z) with htd
  have hzt : z * t = 2 - 2 * t := by
    rw [htd]
    field_simp
    ring
  have e : -(Real.exp (-z ^ 2) * erfG t)
      = -t ^ 2 / 2 * Real.exp (-z * z + PolyQ.eval erfFit t)
        + t * (Real.exp (-z * z + PolyQ.eval erfFit t)
          * (-2 * z + PolyQ.eval (PolyQ.deriv erfFit) t * (-t ^ 2 / 2))) := by
    have e1 : Real.exp (-z * z + PolyQ.eval erfFit t) = Real.exp (-z ^ 2) * Real.exp (PolyQ.eval erfFit t) := by
      rw [← Real.exp_add]
      congr 1
      ring
    have e2 : PolyQ.eval erfQ t = 4 - 4 * t + t ^ 2 / 2 + t ^ 3 * PolyQ.eval (PolyQ.deriv erfFit) t / 2 := by
      unfold erfQ
      simp only [PolyQ.eval_add, PolyQ.eval_cons, PolyQ.eval_scale, PolyQ.eval_nil]
      push_cast
      ring
    unfold erfG
    rw [e1, e2]
    linear_combination (2 * Real.exp (-z ^ 2) * Real.exp (PolyQ.eval erfFit t)) * hzt
  rw [e]
  exact h

theorem recip_range {z : ℝ} (hz : 0 ≤ z) : 0 < 1 / (1 + 0.5 * z) ∧ 1 / (1 + 0.5 * z) ≤ 1 := by
  have h : 1 ≤ 1 + 0.5 * z := by linarith
  exact ⟨by positivity, (div_le_one (by linarith)).2 h⟩

theorem fitErfc_tendsto : Tendsto fitErfc atTop (𝓝 0) := by
  have hb : ∀ᶠ z in atTop, ‖fitErfc z‖ ≤ 2 / √Real.pi * (1 + 2 / 10000000000) * Real.exp (-z) := by
    filter_upwards [eventually_ge_atTop (1 : ℝ)] with z hz
    obtain ⟨t0, t1⟩ := recip_range (zero_le_one.trans hz)
    have hG := (erfG_bounds t0 t1).2
    unfold fitErfc
    generalize 1 / (1 + 0.5 * z) = t at *
    rw [Real.norm_eq_abs, abs_of_nonneg (by positivity), Real.exp_add]
    have hq : 1 ≤ PolyQ.eval erfQ t := by
      have h : PolyQ.nonneg (PolyQ.add erfQ [-1]) 0 1 = true := by decide +kernel
      have := PolyQ.nonneg_spec h (by push_cast; exact t0) (by push_cast; exact t1)
      simp only [PolyQ.eval_add, PolyQ.eval_cons, PolyQ.eval_nil] at this
      push_cast at this
      linarith
    have hp := Real.exp_pos (PolyQ.eval erfFit t)
    have h1 : Real.exp (PolyQ.eval erfFit t) ≤ erfG t := by
      unfold erfG
      nlinarith
    have h2 : Real.exp (-z * z) ≤ Real.exp (-z) := Real.exp_le_exp.2 (by nlinarith)
    have h3 : Real.exp (-z * z) * Real.exp (PolyQ.eval erfFit t)
        ≤ Real.exp (-z) * (2 / √Real.pi * (1 + 2 / 10000000000)) :=
      mul_le_mul h2 (h1.trans hG) hp.le (Real.exp_pos _).le
    calc t * (Real.exp (-z * z) * Real.exp (PolyQ.eval erfFit t))
        ≤ 1 * (Real.exp (-z * z) * Real.exp (PolyQ.eval erfFit t)) :=
          mul_le_mul_of_nonneg_right t1 (by positivity)
      _ ≤ _ := by rw [one_mul]; linarith
  refine squeeze_zero_norm' hb ?_
  have := (Real.tendsto_exp_neg_atTop_nhds_zero).const_mul (2 / √Real.pi * (1 + 2 / 10000000000))
  simpa using this

/-- The fit has the Gaussian integral as value, up to a relative error of 2e-10. -/
theorem fitErfc_bounds {z : ℝ} (hz : 0 ≤ z) :
    gaussErfc z * (1 - 2 / 10000000000) ≤ fitErfc z ∧ fitErfc z ≤ gaussErfc z * (1 + 2 / 10000000000) := by
  have hder : ∀ (c x : ℝ), 0 ≤ x → HasDerivAt (fun y => fitErfc y - gaussErfc y * c)
      (-(Real.exp (-x ^ 2) * (erfG (1 / (1 + 0.5 * x)) - 2 / √Real.pi * c))) x := by
    intro c x hx
    have h := (fitErfc_hasDerivAt hx).sub ((gaussErfc_hasDerivAt x).mul_const c)
    have e : -(Real.exp (-x ^ 2) * (erfG (1 / (1 + 0.5 * x)) - 2 / √Real.pi * c))
        = -(Real.exp (-x ^ 2) * erfG (1 / (1 + 0.5 * x))) - -(2 / √Real.pi * Real.exp (-x ^ 2)) * c := by ring
    rw [e]
    exact h
  have hlim : ∀ c : ℝ, Tendsto (fun y => fitErfc y - gaussErfc y * c) atTop (𝓝 0) := by
    intro c
    have := fitErfc_tendsto.sub (gaussErfc_tendsto.mul_const c)
    simpa using this
  constructor
  · -- the difference decreases to 0
    have hanti : AntitoneOn (fun y => fitErfc y - gaussErfc y * (1 - 2 / 10000000000)) (Ici 0) := by
      refine antitoneOn_of_deriv_nonpos (convex_Ici 0)
        (fun x hx => (hder _ x hx).continuousAt.continuousWithinAt) (fun x hx => ?_) (fun x hx => ?_)
      · rw [interior_Ici] at hx
        exact (hder _ x (le_of_lt hx)).differentiableAt.differentiableWithinAt
      · rw [interior_Ici] at hx
        rw [(hder _ x (le_of_lt hx)).deriv]
        obtain ⟨t0, t1⟩ := recip_range (le_of_lt hx)
        have := (erfG_bounds t0 t1).1
        have h2 := mul_nonneg (Real.exp_pos (-x ^ 2)).le (sub_nonneg.2 this)
        linarith
    have : 0 ≤ fitErfc z - gaussErfc z * (1 - 2 / 10000000000) := by
      refine le_of_tendsto (hlim (1 - 2 / 10000000000)) ?_
      filter_upwards [eventually_ge_atTop z] with y hy
      exact hanti hz (hz.trans hy) hy
    linarith
  · have hmono : MonotoneOn (fun y => fitErfc y - gaussErfc y * (1 + 2 / 10000000000)) (Ici 0) := by
      refine monotoneOn_of_deriv_nonneg (convex_Ici 0)
        (fun x hx => (hder _ x hx).continuousAt.continuousWithinAt) (fun x hx => ?_) (fun x hx => ?_)
      · rw [interior_Ici] at hx
        exact (hder _ x (le_of_lt hx)).differentiableAt.differentiableWithinAt
      · rw [interior_Ici] at hx
        rw [(hder _ x (le_of_lt hx)).deriv]
        obtain ⟨t0, t1⟩ := recip_range (le_of_lt hx)
        have := (erfG_bounds t0 t1).2
        have h2 := mul_nonneg (Real.exp_pos (-x ^ 2)).le (sub_nonneg.2 this)
        linarith
    have : fitErfc z - gaussErfc z * (1 + 2 / 10000000000) ≤ 0 := by
      refine ge_of_tendsto (hlim (1 + 2 / 10000000000)) ?_
      filter_upwards [eventually_ge_atTop z] with y hy
      exact hmono hz (hz.trans hy) hy
    linarith

/-! ## C140 -/

/-- The approximation with the coefficients `c`, as fisx_math.cpp:591-593 computes it. -/
noncomputable def erfcWith (c : List ℚ) (z : ℝ) : ℝ :=
  1 / (1 + 0.5 * z) * Real.exp (-z * z + PolyQ.eval c (1 / (1 + 0.5 * z)))

theorem erfcWith_bounds (c : List ℚ) {lo hi : ℝ} (hhi1 : hi ≤ 1 / 1000000)
    (h : ∀ t : ℝ, 0 < t → t ≤ 1 → -lo ≤ PolyQ.eval c t - PolyQ.eval erfFit t ∧
      PolyQ.eval c t - PolyQ.eval erfFit t ≤ hi) {z : ℝ} (hz : 0 ≤ z) :
    gaussErfc z * ((1 - 2 / 10000000000) * (1 - lo)) ≤ erfcWith c z ∧
    erfcWith c z ≤ gaussErfc z * ((1 + 2 / 10000000000) * (1 + hi + 2 * hi ^ 2)) := by
  obtain ⟨t0, t1⟩ := recip_range hz
  obtain ⟨a1, a2⟩ := h _ t0 t1
  obtain ⟨f1, f2⟩ := fitErfc_bounds hz
  have e : erfcWith c z = fitErfc z * Real.exp (PolyQ.eval c (1 / (1 + 0.5 * z))
      - PolyQ.eval erfFit (1 / (1 + 0.5 * z))) := by
    unfold erfcWith fitErfc
    rw [mul_assoc, ← Real.exp_add]
    congr 2
    ring
  rw [e]
  have hg := gaussErfc_pos z
  have hf : 0 < fitErfc z := by
    unfold fitErfc
    positivity
  generalize PolyQ.eval c (1 / (1 + 0.5 * z)) - PolyQ.eval erfFit (1 / (1 + 0.5 * z)) = d at *
  have x1 : 1 - lo ≤ Real.exp d := by
    have := Real.add_one_le_exp d
    linarith
  have x2 : Real.exp d ≤ 1 + hi + 2 * hi ^ 2 := by
    refine (Real.exp_le_exp.2 a2).trans ?_
    have h := Real.add_one_le_exp (-hi)
    rw [Real.exp_neg] at h
    have hp := Real.exp_pos hi
    have h' : (1 - hi) * Real.exp hi ≤ 1 := by
      have := mul_le_mul_of_nonneg_right h hp.le
      rw [inv_mul_cancel₀ hp.ne'] at this
      linarith
    have h3 : 0 < 1 - hi := by linarith
    have : (1 - hi) * Real.exp hi ≤ (1 - hi) * (1 + hi + 2 * hi ^ 2) := by
      refine h'.trans ?_
      nlinarith [sq_nonneg hi]
    exact le_of_mul_le_mul_left this h3
  constructor
  · calc gaussErfc z * ((1 - 2 / 10000000000) * (1 - lo))
        = gaussErfc z * (1 - 2 / 10000000000) * (1 - lo) := by ring
      _ ≤ gaussErfc z * (1 - 2 / 10000000000) * Real.exp d := by
          refine mul_le_mul_of_nonneg_left x1 ?_
          have : (0 : ℝ) ≤ 1 - 2 / 10000000000 := by norm_num
          positivity
      _ ≤ fitErfc z * Real.exp d := mul_le_mul_of_nonneg_right f1 (Real.exp_pos _).le
  · calc fitErfc z * Real.exp d
        ≤ gaussErfc z * (1 + 2 / 10000000000) * Real.exp d := mul_le_mul_of_nonneg_right f2 (Real.exp_pos _).le
      _ ≤ gaussErfc z * (1 + 2 / 10000000000) * (1 + hi + 2 * hi ^ 2) :=
          mul_le_mul_of_nonneg_left x2 (by positivity)
      _ = _ := by ring

theorem erfR_eq (z : ℝ) (hz : 0 ≤ z) : erfR z = erfcWith erfCode z := by
  unfold erfR erfcWith
  rw [abs_of_nonneg hz]
  simp only [erfPoly_eval]

theorem gaussErfc_le_one {z : ℝ} (hz : 0 ≤ z) : gaussErfc z ≤ 1 := by
  have h := gaussErf_add z
  have : 0 ≤ gaussErf z := by
    unfold gaussErf
    refine mul_nonneg (by positivity) ?_
    exact intervalIntegral.integral_nonneg hz (fun u _ => (Real.exp_pos _).le)
  linarith

/-- **C140** (missing: the published accuracy of 1.2e-7, see `C140_accuracy_violated`) For every argument that is not
negative the relative error of `erfc` is below 4.34e-7. -/
theorem C140_erfc_relative_partial {x : ℝ} (hx : 0 ≤ x) :
    |erfc x - gaussErfc x| ≤ 434 / 1000000000 * gaussErfc x := by
  have h : erfc x = erfcWith erfCode x := by
    unfold erfc
    rw [if_neg (not_lt.2 hx), erfR_eq x hx]
  obtain ⟨a, b⟩ := erfcWith_bounds erfCode (lo := 4335/10000000000) (hi := 1000/10000000000)
    (by norm_num) (fun t h0 h1 => erfCode_fit h0 h1) hx
  have hg := gaussErfc_pos x
  rw [h, abs_le]
  constructor <;> nlinarith

/-- **C140** (missing: the published accuracy) The absolute errors of `erf` and `erfc` are below 4.34e-7 for every
argument. -/
theorem C140_absolute_partial (x : ℝ) :
    |erf x - gaussErf x| ≤ 434 / 1000000000 ∧ |erfc x - gaussErfc x| ≤ 434 / 1000000000 := by
  have hpos : ∀ y : ℝ, 0 ≤ y → |erfR y - gaussErfc y| ≤ 434 / 1000000000 := by
    intro y hy
    have h1 := C140_erfc_relative_partial hy
    have h2 : erfc y = erfR y := by unfold erfc; rw [if_neg (not_lt.2 hy)]
    rw [h2] at h1
    have := gaussErfc_le_one hy
    refine h1.trans ?_
    nlinarith
  have hsum := gaussErf_add x
  have hc : |erfc x - gaussErfc x| ≤ 434 / 1000000000 := by
    by_cases hx : x < 0
    · have h := hpos (-x) (by linarith)
      have hr : erfR (-x) = erfR x := by unfold erfR; rw [abs_neg]
      have hn := gaussErf_neg x
      have hs2 := gaussErf_add (-x)
      unfold erfc
      rw [if_pos hx]
      rw [hr] at h
      rw [abs_le] at h ⊢
      constructor <;> linarith [h.1, h.2]
    · unfold erfc
      rw [if_neg hx]
      exact hpos x (not_lt.1 hx)
  refine ⟨?_, hc⟩
  have hcomp := C49_complementary x
  have e : erf x - gaussErf x = -(erfc x - gaussErfc x) := by linarith
  rw [e, abs_neg]
  exact hc

/-- **C140** (violation) The published accuracy of the approximation, 1.2e-7, is not reached: `erf(0)` is above
3.2e-7. -/
theorem C140_accuracy_violated :
    gaussErf 0 = 0 ∧ 32 / 100000000 < erf 0 ∧ 32 / 100000000 * gaussErfc 0 < |erfc 0 - gaussErfc 0| := by
  have h0 : gaussErf 0 = 0 := by simp [gaussErf]
  have hc : gaussErfc 0 = 1 := by have := gaussErf_add 0; linarith
  have hr : erfR 0 ≤ 1 - 325 / 1000000000 := by
    have e : erfR 0 = Real.exp (-(33 / 100000000)) := by
      unfold erfR erfPoly
      norm_num
    rw [e, Real.exp_neg]
    have h := Real.add_one_le_exp (33 / 100000000 : ℝ)
    refine (inv_anti₀ (by norm_num) h).trans ?_
    norm_num
  refine ⟨h0, ?_, ?_⟩
  · unfold erf
    simp only [lt_irrefl, if_false]
    linarith
  · unfold erfc
    simp only [lt_irrefl, if_false]
    rw [hc, abs_of_neg (by linarith)]
    linarith

/-- **C140** The cause: with the published third coefficient, 0.37409196 instead of 0.3740916, the relative error is
below 1.08e-7 for every argument that is not negative. -/
theorem C140_published_coefficient {z : ℝ} (hz : 0 ≤ z) :
    |erfcWith erfPublished z - gaussErfc z| ≤ 108 / 1000000000 * gaussErfc z ∧
    erfCode = erfPublished.set 2 (3740916/10000000) ∧ erfPublished[2]? = some (37409196/100000000) := by
  obtain ⟨a, b⟩ := erfcWith_bounds erfPublished (lo := 1075/10000000000) (hi := 1075/10000000000)
    (by norm_num) (fun t h0 h1 => erfPublished_fit h0 h1) hz
  have hg := gaussErfc_pos z
  refine ⟨?_, by decide +kernel, by decide +kernel⟩
  rw [abs_le]
  constructor <;> nlinarith

end MathFn
end Fisx
