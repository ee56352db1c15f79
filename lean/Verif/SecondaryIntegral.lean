import Verif.MultilayerSecondary
import Verif.MathX
import Verif.MultilayerThick
import Verif.MultilayerParts
import Verif.ElementEmission
import Verif.MultilayerParts

/-!
# C141: the geometry of the secondary excitation is the physical double integral

Property C84 gives the secondary excitation in terms of `secondaryGeometry`, that is of de Boer's closed formulas. Here this
factor is compared with the integral, over the depth of the excited atom and the depth of the source, of Beer-Lambert
attenuation along the three paths.
-/

set_option linter.unusedSectionVars false

namespace Fisx
namespace Multilayer

open MeasureTheory Set MathFn

section spec

variable {R : Type} (pf : String → Outcome (SMap String ℝ)) (fuel : Nat) (L : Library ℝ) (c : Config ℝ R)

/-- Mass thickness times coefficient, for photons of energy `s` that go straight from the depth `w` of layer `j` of the sample
to the depth `u` of layer `i`. -/
noncomputable def pathBetween (i j : Nat) (s u w : ℝ) : ℝ :=
  if i = j then sampleMu pf fuel L c i s * |u - w|
  else if i < j then sampleMu pf fuel L c i s * (massThicknessOf c i - u)
    + opticalDepth pf fuel L c (i + 1) (j - (i + 1)) s + sampleMu pf fuel L c j s * w
  else sampleMu pf fuel L c i s * u + opticalDepth pf fuel L c (j + 1) (i - (j + 1)) s
    + sampleMu pf fuel L c j s * (massThicknessOf c j - w)

/-- The enhancement: the beam (energy `e`) reaches the depth `w` of layer `j`, what it excites there (energy `s`) is emitted in
all directions and excites atoms at the depth `u` of layer `i` (the exponential integral is the average over the
directions, for parallel layers), and their line (coefficient `muT`) leaves the layer towards the detector. The
depths are mass thicknesses. -/
noncomputable def enhancement (i j : Nat) (e s muT : ℝ) : ℝ :=
  ∫ u in (0 : ℝ)..massThicknessOf c i, ∫ w in (0 : ℝ)..massThicknessOf c j,
    Real.exp (-(muT / sinOut c * u)) * Real.exp (-(sampleMu pf fuel L c j e / sinIn c * w)) *
      ∫ t in Set.Ioi (pathBetween pf fuel L c i j s u w), Real.exp (-t) / t

end spec

/-! ## The integrals -/

/-- The lower triangle: the source above the excited atom. -/
theorem lowerTriangle {q a m d : ℝ} (hq : 0 < q) (ha : 0 < a) (hm : 0 < m) (ham : a ≠ m) (hd : 0 < d) :
    (∫ u in (0 : ℝ)..d, Real.exp (-((q + a) * u)) * kInt (-a) m u) = layerIntegral q a m d := by
  have hs : 0 < q + a := by linarith
  have hp1 : m + q ≠ 0 := by positivity
  have hp2 : m + -a ≠ 0 := fun h => ham (by linarith)
  have ha2 : -a ≠ 0 := neg_ne_zero.2 ha.ne'
  rw [layerIntegral_eq hq ha hm ham hd]
  have hc1 := kInt_continuous hq.ne' hm hp1 hd.le
  have hc2 := kInt_continuous ha2 hm hp2 hd.le
  have hexp : Continuous (fun r : ℝ => Real.exp (-((q + a) * r))) := by fun_prop
  have hG : ContinuousOn (fun r => (kInt q m r - Real.exp (-((q + a) * r)) * kInt (-a) m r) / (q + a)) (Icc 0 d) :=
    (hc1.sub (hexp.continuousOn.mul hc2)).div_const _
  have hI : IntervalIntegrable (fun r => Real.exp (-((q + a) * r)) * kInt (-a) m r) volume 0 d := by
    apply ContinuousOn.intervalIntegrable
    rw [uIcc_of_le hd.le]
    exact hexp.continuousOn.mul hc2
  have h := intervalIntegral.integral_eq_sub_of_hasDerivAt_of_le hd.le hG (f' := fun r =>
      Real.exp (-((q + a) * r)) * kInt (-a) m r) (by
    intro r hr
    have d1 := kInt_hasDeriv hq.ne' hm hp1 hr.1
    have d2 := kInt_hasDeriv ha2 hm hp2 hr.1
    have d3 : HasDerivAt (fun r : ℝ => Real.exp (-((q + a) * r))) (Real.exp (-((q + a) * r)) * -(q + a)) r := by
      have a : HasDerivAt (fun r : ℝ => -((q + a) * r)) (-((q + a) * 1)) r :=
        ((hasDerivAt_id r).const_mul (q + a)).neg
      exact a.exp.congr_deriv (by ring)
    refine ((d1.sub (d3.mul d2)).div_const (q + a)).congr_deriv ?_
    have e : Real.exp (-((q + a) * r)) * Real.exp (-(-a * r)) = Real.exp (-(q * r)) := by
      rw [← Real.exp_add]; congr 1; ring
    generalize trueE1 (m * r) = T
    generalize Real.exp (-((q + a) * r)) = X1 at *
    generalize Real.exp (-(-a * r)) = X2 at *
    generalize Real.exp (-(q * r)) = X3 at *
    rw [div_eq_iff hs.ne']
    linear_combination -T * e) hI
  rw [h]
  simp [kInt]

/-- The integral over all pairs of depths of one layer is the sum of those over the two triangles. -/
theorem square_eq {q a m d : ℝ} (hq : 0 < q) (ha : 0 < a) (hm : 0 < m) (ham : a ≠ m) (hd : 0 < d) :
    (∫ u in (0 : ℝ)..d, ∫ w in (0 : ℝ)..d, Real.exp (-(q * u)) * Real.exp (-(a * w)) *
      ∫ t in Set.Ioi (m * |u - w|), Real.exp (-t) / t) = layerIntegral a q m d + layerIntegral q a m d := by
  have hmq : m + a ≠ 0 := by positivity
  have hp2 : m + -a ≠ 0 := fun h => ham (by linarith)
  have ha2 : -a ≠ 0 := neg_ne_zero.2 ha.ne'
  have lo : ∀ u ∈ Icc (0 : ℝ) d, IntervalIntegrable (fun w => Real.exp (-(q * u)) * Real.exp (-(a * w)) *
        ∫ t in Set.Ioi (m * |u - w|), Real.exp (-t) / t) volume 0 u ∧
      (∫ w in (0 : ℝ)..u, Real.exp (-(q * u)) * Real.exp (-(a * w)) * ∫ t in Set.Ioi (m * |u - w|), Real.exp (-t) / t)
        = Real.exp (-((q + a) * u)) * kInt (-a) m u := by
    intro u hu
    have i := (kInt_integrable ha2 hm hp2 hu.1).const_mul (Real.exp (-((q + a) * u)))
    have hcg : EqOn (fun w => Real.exp (-((q + a) * u)) * (Real.exp (-(-a * (u - w))) * trueE1 (m * (u - w))))
        (fun w => Real.exp (-(q * u)) * Real.exp (-(a * w)) * ∫ t in Set.Ioi (m * |u - w|), Real.exp (-t) / t)
        (uIcc 0 u) := by
      intro w hw
      rw [uIcc_of_le hu.1] at hw
      simp only [trueE1]
      rw [abs_of_nonneg (sub_nonneg.2 hw.2), ← mul_assoc, ← Real.exp_add, ← Real.exp_add]
      congr 2
      ring
    have i2 := i.comp_sub_left u
    rw [sub_zero, sub_self] at i2
    refine ⟨i2.symm.congr (fun x hx => hcg (uIoc_subset_uIcc hx)), ?_⟩
    rw [← intervalIntegral.integral_congr hcg]
    have h := intervalIntegral.integral_comp_sub_left (a := 0) (b := u)
      (fun r => Real.exp (-((q + a) * u)) * (Real.exp (-(-a * r)) * trueE1 (m * r))) u
    rw [sub_zero, sub_self] at h
    rw [h, intervalIntegral.integral_const_mul]
    rfl
  have hi : ∀ u ∈ Icc (0 : ℝ) d, IntervalIntegrable (fun w => Real.exp (-(q * u)) * Real.exp (-(a * w)) *
        ∫ t in Set.Ioi (m * |u - w|), Real.exp (-t) / t) volume u d ∧
      (∫ w in u..d, Real.exp (-(q * u)) * Real.exp (-(a * w)) * ∫ t in Set.Ioi (m * |u - w|), Real.exp (-t) / t)
        = Real.exp (-((a + q) * u)) * kInt a m (d - u) := by
    intro u hu
    have i := (kInt_integrable ha.ne' hm hmq (sub_nonneg.2 hu.2)).const_mul (Real.exp (-((a + q) * u)))
    have hcg : EqOn (fun w => Real.exp (-((a + q) * u)) * (Real.exp (-(a * (w - u))) * trueE1 (m * (w - u))))
        (fun w => Real.exp (-(q * u)) * Real.exp (-(a * w)) * ∫ t in Set.Ioi (m * |u - w|), Real.exp (-t) / t)
        (uIcc u d) := by
      intro w hw
      rw [uIcc_of_le hu.2] at hw
      simp only [trueE1]
      rw [abs_of_nonpos (sub_nonpos.2 hw.1), neg_sub, ← mul_assoc, ← Real.exp_add, ← Real.exp_add]
      congr 2
      ring
    have i2 := i.comp_sub_right u
    rw [zero_add, sub_add_cancel] at i2
    refine ⟨i2.congr (fun x hx => hcg (uIoc_subset_uIcc hx)), ?_⟩
    rw [← intervalIntegral.integral_congr hcg]
    have h := intervalIntegral.integral_comp_sub_right (a := u) (b := d)
      (fun r => Real.exp (-((a + q) * u)) * (Real.exp (-(a * r)) * trueE1 (m * r))) u
    rw [sub_self] at h
    rw [h, intervalIntegral.integral_const_mul]
    rfl
  have hsum : ∀ u ∈ uIcc (0 : ℝ) d, (∫ w in (0 : ℝ)..d, Real.exp (-(q * u)) * Real.exp (-(a * w)) *
      ∫ t in Set.Ioi (m * |u - w|), Real.exp (-t) / t)
      = Real.exp (-((a + q) * u)) * kInt a m (d - u) + Real.exp (-((q + a) * u)) * kInt (-a) m u := by
    intro u hu
    rw [uIcc_of_le hd.le] at hu
    rw [← intervalIntegral.integral_add_adjacent_intervals (lo u hu).1 (hi u hu).1, (lo u hu).2, (hi u hu).2]
    ring
  rw [intervalIntegral.integral_congr hsum]
  have hc1 := kInt_continuous ha.ne' hm hmq hd.le
  have hc2 := kInt_continuous ha2 hm hp2 hd.le
  have e1 : Continuous (fun r : ℝ => Real.exp (-((a + q) * r))) := by fun_prop
  have e2 : Continuous (fun r : ℝ => Real.exp (-((q + a) * r))) := by fun_prop
  rw [intervalIntegral.integral_add]
  · rw [lowerTriangle hq ha hm ham hd]
    congr 1
    rw [layerIntegral_single]
    have h := intervalIntegral.integral_comp_sub_left (a := 0) (b := d)
      (fun r => Real.exp (-((a + q) * (d - r))) * kInt a m r) d
    rw [sub_self, sub_zero] at h
    rw [← h]
    apply intervalIntegral.integral_congr
    intro x _
    simp
  · apply ContinuousOn.intervalIntegrable
    rw [uIcc_of_le hd.le]
    refine e1.continuousOn.mul (hc1.comp (by fun_prop) ?_)
    intro u hu
    exact ⟨sub_nonneg.2 hu.2, by linarith [hu.1]⟩
  · apply ContinuousOn.intervalIntegrable
    rw [uIcc_of_le hd.le]
    exact e2.continuousOn.mul hc2

/-- Two layers, the source below: `deBoerX` counts the depth in layer i from its bottom. -/
theorem cross_below (q a m1 m2 b d1 d2 : ℝ) :
    (∫ u in (0 : ℝ)..d1, ∫ w in (0 : ℝ)..d2, Real.exp (-(q * u)) * Real.exp (-(a * w)) *
      ∫ t in Set.Ioi (m1 * (d1 - u) + b + m2 * w), Real.exp (-t) / t)
      = Real.exp (-(q * d1)) * crossIntegral a q d1 d2 m1 m2 b := by
  unfold crossIntegral
  rw [← intervalIntegral.integral_const_mul]
  have h := intervalIntegral.integral_comp_sub_left (a := 0) (b := d1)
    (fun x => Real.exp (-(q * d1)) * ∫ w in (0 : ℝ)..d2, Real.exp (q * x - a * w) *
      ∫ t in Set.Ioi (m1 * x + b + m2 * w), Real.exp (-t) / t) d1
  rw [sub_self, sub_zero] at h
  rw [← h]
  apply intervalIntegral.integral_congr
  intro u _
  simp only
  rw [← intervalIntegral.integral_const_mul]
  apply intervalIntegral.integral_congr
  intro w _
  simp only
  rw [← mul_assoc, ← Real.exp_add, ← Real.exp_add]
  congr 2
  ring

/-- Two layers, the source above: `deBoerX` counts the depth in layer j from its bottom. -/
theorem cross_above (q a m1 m2 b d1 d2 : ℝ) :
    (∫ u in (0 : ℝ)..d1, ∫ w in (0 : ℝ)..d2, Real.exp (-(q * u)) * Real.exp (-(a * w)) *
      ∫ t in Set.Ioi (m1 * u + b + m2 * (d2 - w)), Real.exp (-t) / t)
      = Real.exp (-(a * d2)) * crossIntegral (-a) (-q) d1 d2 m1 m2 b := by
  unfold crossIntegral
  rw [← intervalIntegral.integral_const_mul]
  apply intervalIntegral.integral_congr
  intro u _
  simp only
  rw [← intervalIntegral.integral_const_mul]
  have h := intervalIntegral.integral_comp_sub_left (a := 0) (b := d2)
    (fun y => Real.exp (-(a * d2)) * (Real.exp (-q * u - -a * y) *
      ∫ t in Set.Ioi (m1 * u + b + m2 * y), Real.exp (-t) / t)) d2
  rw [sub_self, sub_zero] at h
  rw [← h]
  apply intervalIntegral.integral_congr
  intro w _
  simp only
  rw [← mul_assoc, ← Real.exp_add, ← Real.exp_add]
  congr 2
  ring

/-! ## C141 -/

/-- The error bound of `C135_integral_partial`, for one of the two triangles of a layer of mass thickness d. -/
noncomputable def triangleError (mu1 mu2 muj d : ℝ) : ℝ :=
  Real.exp (-(mu1 + muj) * d) *
    ((if mu2 < muj then 1.2e-6 / ((muj - mu2) * d) else 3e-9 + ((mu2 - muj) * d) ^ 11 / 439084800) / (mu2 * (mu1 + mu2))
      + 1.2e-6 / (muj * d) / (mu1 * mu2) + 1.2e-6 / ((muj + mu1) * d) / (mu1 * (mu1 + mu2)))

theorem deBoerL0_close {mu1 mu2 muj density thickness : ℝ} (h1 : 0 < mu1) (h2 : 0 < mu2) (hmj : 0 < muj)
    (hj : mu2 ≠ muj) (hd : 0 < density * thickness)
    (hlo : 0.01 ≤ (mu1 + mu2) * (density * thickness)) (hhi : (mu1 + mu2) * (density * thickness) ≤ 10) :
    0 ≤ valueOr0 (deBoerL0 mu1 mu2 muj density thickness) ∧
    |valueOr0 (deBoerL0 mu1 mu2 muj density thickness) - layerIntegral mu1 mu2 muj (density * thickness)| ≤
      triangleError mu1 mu2 muj (density * thickness) := by
  rw [mul_comm density thickness] at hd hlo hhi ⊢
  have hI := layerIntegral_pos (mu2 := mu2) h1 hmj hd
  rcases C135_integral_partial h1 h2 hmj hj hlo hhi with ⟨v, hv, v0, hb⟩ | ⟨ht, hb⟩
  · rw [hv]
    exact ⟨v0, hb⟩
  · rw [ht]
    refine ⟨le_rfl, ?_⟩
    change |0 - layerIntegral mu1 mu2 muj (thickness * density)| ≤ _
    rw [zero_sub, abs_neg, abs_of_pos hI]
    exact hb.le

section api

variable {R : Type} (pf : String → Outcome (SMap String ℝ)) (fuel : Nat) (L : Library ℝ) (c : Config ℝ R)

/-- **C141** (partial) Inside a layer: the geometry of the secondary excitation is not negative and is the enhancement integral
within the stated bound, when the layer is neither thin nor thick and the coefficient of the source differs from the two
others. Missing: thin and thick layers (C136), equal coefficients (C60), and that the bound is small (C133). -/
theorem C141_same_layer_partial {i : Nat} {e s muT : ℝ}
    (hin : 0 < sinIn c) (hout : 0 < sinOut c) (hT : 0 < muT)
    (he : 0 < sampleMu pf fuel L c i e) (hs : 0 < sampleMu pf fuel L c i s)
    (hne1 : sampleMu pf fuel L c i e / sinIn c ≠ sampleMu pf fuel L c i s)
    (hne2 : muT / sinOut c ≠ sampleMu pf fuel L c i s)
    (hlo : 0.01 ≤ (sampleMu pf fuel L c i e / sinIn c + muT / sinOut c) * massThicknessOf c i)
    (hhi : (sampleMu pf fuel L c i e / sinIn c + muT / sinOut c) * massThicknessOf c i ≤ 10) :
    0 ≤ secondaryGeometry pf fuel L c i i e s muT ∧
    |secondaryGeometry pf fuel L c i i e s muT - enhancement pf fuel L c i i e s muT| ≤
      triangleError (sampleMu pf fuel L c i e / sinIn c) (muT / sinOut c) (sampleMu pf fuel L c i s) (massThicknessOf c i)
      + triangleError (muT / sinOut c) (sampleMu pf fuel L c i e / sinIn c) (sampleMu pf fuel L c i s)
          (massThicknessOf c i) := by
  have ha : 0 < sampleMu pf fuel L c i e / sinIn c := div_pos he hin
  have hq : 0 < muT / sinOut c := div_pos hT hout
  have hd : 0 < massThicknessOf c i := by
    by_contra hc
    have : (sampleMu pf fuel L c i e / sinIn c + muT / sinOut c) * massThicknessOf c i ≤ 0 :=
      mul_nonpos_of_nonneg_of_nonpos (by linarith) (not_lt.1 hc)
    norm_num at hlo
    linarith
  have hE : enhancement pf fuel L c i i e s muT =
      layerIntegral (sampleMu pf fuel L c i e / sinIn c) (muT / sinOut c) (sampleMu pf fuel L c i s) (massThicknessOf c i)
      + layerIntegral (muT / sinOut c) (sampleMu pf fuel L c i e / sinIn c) (sampleMu pf fuel L c i s)
          (massThicknessOf c i) := by
    unfold enhancement pathBetween
    simp only [if_true]
    exact square_eq hq ha hs hne1 hd
  rw [hE]
  unfold secondaryGeometry nudged
  simp only [if_true, if_neg hne1]
  unfold massThicknessOf at *
  cases hl : c.sample[i]? with
  | none => simp [hl] at hd
  | some l =>
    simp only [hl] at hd hlo hhi ⊢
    have t1 := deBoerL0_close ha hq hs hne2 hd hlo hhi
    have t2 := deBoerL0_close hq ha hs hne1 hd (by rw [add_comm]; exact hlo) (by rw [add_comm]; exact hhi)
    refine ⟨add_nonneg t1.1 t2.1, ?_⟩
    rw [add_sub_add_comm]
    exact le_trans (abs_add_le _ _) (add_le_add t1.2 t2.2)

/-- The sum of the errors of `deBoerX` at the four corners (`C137_error_small_partial` gives their size). -/
noncomputable def crossError (p q d1 d2 m1 m2 b : ℝ) : ℝ :=
  cornerError p q m1 m2 b d1 d2 + cornerError p q m1 m2 b d1 0 + cornerError p q m1 m2 b 0 d2 + cornerError p q m1 m2 b 0 0

theorem opticalDepth_nonneg (hD : ∀ k, 0 ≤ massThicknessOf c k) {s : ℝ} (hM : ∀ k, 0 ≤ sampleMu pf fuel L c k s)
    (b n : Nat) : 0 ≤ opticalDepth pf fuel L c b n s := by
  unfold opticalDepth
  apply List.sum_nonneg
  intro x hx
  obtain ⟨k, -, rfl⟩ := List.mem_map.1 hx
  exact mul_nonneg (hD k) (hM k)

/-- **C141** (partial) Source in a layer `j` below layer `i`, if the line is not absorbed by more than a factor 1000 in
layer `i`: the geometry is the enhancement integral within the stated bound. Missing: equal coefficients, and that the
bound is small, see `C137_cross_layer_violated`. -/
theorem C141_source_below_partial {i j : Nat} (hij : i < j) {e s muT : ℝ}
    (hin : 0 < sinIn c) (hout : 0 < sinOut c) (hT : 0 < muT)
    (he : 0 < sampleMu pf fuel L c j e) (hsi : 0 < sampleMu pf fuel L c i s) (hsj : 0 < sampleMu pf fuel L c j s)
    (hM : ∀ k, 0 ≤ sampleMu pf fuel L c k s) (hD : ∀ k, 0 ≤ massThicknessOf c k) (hDi : 0 < massThicknessOf c i)
    (hne : muT / sinOut c ≠ sampleMu pf fuel L c i s)
    (hg : 1 / 1000 ≤ Real.exp (-(muT * massThicknessOf c i / sinOut c))) :
    |secondaryGeometry pf fuel L c i j e s muT - enhancement pf fuel L c i j e s muT| ≤
      Real.exp (-(muT * massThicknessOf c i / sinOut c)) *
        crossError (sampleMu pf fuel L c j e / sinIn c) (muT / sinOut c) (massThicknessOf c i) (massThicknessOf c j)
          (sampleMu pf fuel L c i s) (sampleMu pf fuel L c j s) (opticalDepth pf fuel L c (i + 1) (j - (i + 1)) s) := by
  have ha : 0 < sampleMu pf fuel L c j e / sinIn c := div_pos he hin
  have hq : 0 < muT / sinOut c := div_pos hT hout
  have hE : enhancement pf fuel L c i j e s muT = Real.exp (-(muT * massThicknessOf c i / sinOut c)) *
      crossIntegral (sampleMu pf fuel L c j e / sinIn c) (muT / sinOut c) (massThicknessOf c i) (massThicknessOf c j)
        (sampleMu pf fuel L c i s) (sampleMu pf fuel L c j s) (opticalDepth pf fuel L c (i + 1) (j - (i + 1)) s) := by
    unfold enhancement pathBetween
    simp only [if_neg hij.ne, if_pos hij]
    rw [cross_below]
    congr 3
    ring
  rw [hE]
  unfold secondaryGeometry
  simp only [if_neg hij.ne, if_pos hij, if_neg (not_lt.2 hg)]
  rw [if_neg (by linarith : ¬ -(sampleMu pf fuel L c j e / sinIn c) = sampleMu pf fuel L c j s)]
  obtain ⟨v, hv, hb⟩ := C137_cross_layer_partial ha.ne' hq.ne' hsi hsj (by positivity) (by linarith) hne
    (opticalDepth_nonneg pf fuel L c hD hM (i + 1) (j - (i + 1))) hDi (hD j)
  rw [hv]
  change |_ * v - _| ≤ _
  rw [← mul_sub, abs_mul, abs_of_pos (Real.exp_pos _)]
  exact mul_le_mul_of_nonneg_left hb (Real.exp_pos _).le

/-- **C141** (partial) Source in a layer `j` above layer `i`. Missing: equal coefficients, and that the bound is small. -/
theorem C141_source_above_partial {i j : Nat} (hji : j < i) {e s muT : ℝ}
    (hin : 0 < sinIn c) (hout : 0 < sinOut c) (hT : 0 < muT)
    (he : 0 < sampleMu pf fuel L c j e) (hsi : 0 < sampleMu pf fuel L c i s) (hsj : 0 < sampleMu pf fuel L c j s)
    (hM : ∀ k, 0 ≤ sampleMu pf fuel L c k s) (hD : ∀ k, 0 ≤ massThicknessOf c k) (hDi : 0 < massThicknessOf c i)
    (hne : sampleMu pf fuel L c j e / sinIn c ≠ sampleMu pf fuel L c j s) :
    |secondaryGeometry pf fuel L c i j e s muT - enhancement pf fuel L c i j e s muT| ≤
      Real.exp (-(sampleMu pf fuel L c j e / sinIn c * massThicknessOf c j)) *
        crossError (-(sampleMu pf fuel L c j e / sinIn c)) (-(muT / sinOut c)) (massThicknessOf c i) (massThicknessOf c j)
          (sampleMu pf fuel L c i s) (sampleMu pf fuel L c j s) (opticalDepth pf fuel L c (j + 1) (i - (j + 1)) s) := by
  have ha : 0 < sampleMu pf fuel L c j e / sinIn c := div_pos he hin
  have hq : 0 < muT / sinOut c := div_pos hT hout
  have hE : enhancement pf fuel L c i j e s muT = Real.exp (-(sampleMu pf fuel L c j e / sinIn c * massThicknessOf c j)) *
      crossIntegral (-(sampleMu pf fuel L c j e / sinIn c)) (-(muT / sinOut c)) (massThicknessOf c i) (massThicknessOf c j)
        (sampleMu pf fuel L c i s) (sampleMu pf fuel L c j s) (opticalDepth pf fuel L c (j + 1) (i - (j + 1)) s) := by
    unfold enhancement pathBetween
    simp only [if_neg hji.ne', if_neg (not_lt.2 hji.le)]
    exact cross_above _ _ _ _ _ _ _
  rw [hE]
  unfold secondaryGeometry nudged
  simp only [if_neg hji.ne', if_neg (not_lt.2 hji.le), if_neg hne]
  have hS : -(sampleMu pf fuel L c j e / sinIn c) * sampleMu pf fuel L c i s
      + -(muT / sinOut c) * sampleMu pf fuel L c j s ≠ 0 := by
    have := mul_pos ha hsi
    have := mul_pos hq hsj
    intro h
    nlinarith
  obtain ⟨v, hv, hb⟩ := C137_cross_layer_partial (neg_ne_zero.2 ha.ne') (neg_ne_zero.2 hq.ne') hsi hsj hS
    (fun h => hne (neg_inj.1 h)) (by linarith)
    (opticalDepth_nonneg pf fuel L c hD hM (j + 1) (i - (j + 1))) hDi (hD j)
  rw [hv]
  change |_ * v - _| ≤ _
  rw [← mul_sub, abs_mul, abs_of_pos (Real.exp_pos _)]
  exact mul_le_mul_of_nonneg_left hb (Real.exp_pos _).le

theorem deBoerL0_nonneg (mu1 mu2 muj density thickness : ℝ) : 0 ≤ valueOr0 (deBoerL0 mu1 mu2 muj density thickness) := by
  unfold deBoerL0
  simp only
  split_ifs with h1 h2 h3
  · exact le_rfl
  · push Not at h1
    show 0 ≤ muj / mu1 * Real.log (1 + mu1 / muj) / ((mu1 + mu2) * muj)
    have hl : 0 ≤ Real.log (1 + mu1 / muj) := by
      apply Real.log_nonneg
      have := div_pos h1.1 h1.2.2
      linarith
    have := h1.1
    have := h1.2.1
    have := h1.2.2
    positivity
  · exact le_rfl
  · push Not at h1
    have key : ∀ r : Option ℝ, 0 ≤ valueOr0 (checkResult r) := by
      intro r
      cases r with
      | none => exact le_rfl
      | some v =>
        simp only [checkResult]
        split_ifs with hv
        · exact le_rfl
        · exact not_lt.1 hv
    cases e1 : deBoerD ((muj - mu2) * (thickness * density)) with
    | ok D1 =>
      cases e2 : deBoerD (muj * (thickness * density)) with
      | ok D2 =>
        cases e3 : deBoerD ((muj + mu1) * (thickness * density)) with
        | ok D3 => exact key _
        | _ => exact le_rfl
      | _ => exact le_rfl
    | _ => exact le_rfl

/-- **C141** The geometry inside a layer is never negative, whatever the coefficients and thicknesses. -/
theorem C141_same_layer_nonneg (i : Nat) (e s muT : ℝ) : 0 ≤ secondaryGeometry pf fuel L c i i e s muT := by
  unfold secondaryGeometry
  simp only [if_true]
  cases c.sample[i]? with
  | none => exact le_rfl
  | some l => exact add_nonneg (deBoerL0_nonneg _ _ _ _ _) (deBoerL0_nonneg _ _ _ _ _)

/-- **C141** The enhancement integral is not negative, for any pair of layers. -/
theorem C141_enhancement_nonneg {i j : Nat} {e s muT : ℝ} (hM : ∀ k, 0 < sampleMu pf fuel L c k s ∨ massThicknessOf c k = 0)
    (hD : ∀ k, 0 ≤ massThicknessOf c k) : 0 ≤ enhancement pf fuel L c i j e s muT := by
  unfold enhancement
  apply intervalIntegral.integral_nonneg (hD i)
  intro u hu
  apply intervalIntegral.integral_nonneg (hD j)
  intro w hw
  apply mul_nonneg (mul_nonneg (Real.exp_pos _).le (Real.exp_pos _).le)
  have hod : ∀ b n, 0 ≤ opticalDepth pf fuel L c b n s := by
    intro b n
    unfold opticalDepth
    apply List.sum_nonneg
    intro x hx
    obtain ⟨k, -, rfl⟩ := List.mem_map.1 hx
    rcases hM k with h | h
    · exact mul_nonneg (hD k) h.le
    · rw [h, zero_mul]
  have hz : ∀ k x, 0 ≤ x → x ≤ massThicknessOf c k → 0 ≤ sampleMu pf fuel L c k s * x := by
    intro k x h0 h1
    rcases hM k with h | h
    · exact mul_nonneg h.le h0
    · rw [show x = 0 by linarith, mul_zero]
  apply setIntegral_nonneg measurableSet_Ioi
  intro t ht
  have : 0 ≤ pathBetween pf fuel L c i j s u w := by
    unfold pathBetween
    split_ifs with h1 h2
    · subst h1
      apply hz i _ (abs_nonneg _)
      rw [abs_le]
      constructor <;> linarith [hu.1, hu.2, hw.1, hw.2]
    · have a := hz i (massThicknessOf c i - u) (by linarith [hu.2]) (by linarith [hu.1])
      have b := hz j w hw.1 hw.2
      have := hod (i + 1) (j - (i + 1))
      linarith
    · have a := hz i u hu.1 hu.2
      have b := hz j (massThicknessOf c j - w) (by linarith [hw.2]) (by linarith [hw.1])
      have := hod (j + 1) (i - (j + 1))
      linarith
  have : 0 < t := lt_of_le_of_lt this ht
  positivity

/-! ### Samples of one layer -/

theorem sampleCoherent_nonneg (hs : Sensible pf fuel L c) (i : Nat) (e : ℝ) : 0 ≤ sampleCoherent pf fuel L c i e := by
  unfold sampleCoherent
  split
  · exact le_refl _
  · rename_i l' _
    cases hm : layerMu pf fuel L c l' e (sampleComposition pf fuel L c i) with
    | ok m =>
      show 0 ≤ m.coherent
      unfold layerMu at hm
      split at hm
      · exact (Library.C114_mixture expNonneg pf L fuel hs.data hs.fractions _ e true
          (fun _ => sampleComposition_nonneg hs i) m hm).1
      · obtain ⟨m', h1, hm⟩ := Outcome.bind_eq_ok.mp hm
        exact (Library.C114_mixture expNonneg pf L fuel hs.data hs.fractions m' e false (by simp) m hm).1
    | throw _ => exact le_refl _
    | ub _ => exact le_refl _
    | diverge => exact le_refl _

theorem source_nonneg (srt : List (String × ℝ) → List (String × ℝ)) (hs : Sensible pf fuel L c) (o : Options ℝ) (j : Nat)
    {ray : ℝ × ℝ} (hr : 0 ≤ ray.2) {s : Str × ℝ × ℝ} (h : s ∈ sources pf fuel L srt c o j ray) : 0 ≤ s.2.2 := by
  unfold sources at h
  have hw : 0 ≤ reaching pf fuel L c j ray.1 := (Real.exp_pos _).le
  rcases List.mem_append.1 h with h | h
  · obtain ⟨fam, -, h⟩ := List.mem_flatMap.1 h
    obtain ⟨p, hp, rfl⟩ := List.mem_map.1 h
    have hp := (List.mem_filter.1 hp).2
    have hsrc : IsSource o (familyShell fam.1)
      (((sampleComposition pf fuel L c j).find? (String.ofList (familyElement fam.1))).getD 0) p := by simpa using hp
    simp only
    have := hsrc.2.1
    have := mul_nonneg (mul_nonneg hr hw) this.le
    linarith
  · simp only [List.mem_singleton] at h
    subst h
    exact mul_nonneg (mul_nonneg hr hw) (sampleCoherent_nonneg pf fuel L c hs j _)

theorem excitedLines_rate (hL : SoundLibrary pf fuel L) (hs : Sensible pf fuel L c) {el : String} {e : ℝ} (p : Str × Factor ℝ)
    (h : p ∈ excitedLines L el e) : 0 ≤ p.2.rate := by
  unfold excitedLines at h
  split at h
  · rename_i fs hfs
    obtain ⟨x, h1, hfs⟩ := Outcome.bind_eq_ok.mp hfs
    have hmem := Library.getElement_mem L el x h1
    have hct := (hL.elements x hmem).cached
    rw [(Element.cacheTrue_transparent hct e 1).2] at hfs
    have hfr : Element.Fresh { x.data with cacheOn := false } :=
      Element.fresh_congr (hL.elements x hmem).fresh ⟨rfl, fun _ _ => rfl⟩ rfl
    obtain ⟨q1, m, hm, q2⟩ := Element.C142_factors_positive hfr (Or.inl rfl) one_pos hfs p h
    rw [← (Element.cacheTrue_transparent hct e 1).1] at hm
    have hm' := (Element.C114_element expNonneg x.data hct (hs.data x hmem).1 e m hm).2.2.2.1
    rw [q2]
    exact mul_nonneg q1.le hm'
  · cases h

/-- **C141** For a sample of one layer, the secondary excitation returned for a line is never negative, nor the part of it
under the name of a source: for a beam without negative weights and data without negative coefficients. -/
theorem C141_one_layer (srt : List (String × ℝ) → List (String × ℝ)) (o : Options ℝ) (g : Bool)
    (hL : SoundLibrary pf fuel L) (hs : Sensible pf fuel L c) (hin : 0 < sinIn c) (hlen : c.sample.length = 1)
    (reqs : List Xrf.Request) (hp : ∀ q ∈ reqs, ' ' ∉ q.element.toList) (b : Beam ℝ)
    (hb : ∀ ray ∈ usedBeam c b, 0 ≤ ray.2) (r : Result ℝ)
    (h : fluorescence pf fuel L srt c o g b (reqs.map .ok) = .ok r) (k : String) (i : Nat)
    (t : Str) (ht : ' ' ∉ t) (l : Leaf ℝ) (hl : leaf? r k i t = some l) :
    0 ≤ l.secondary ∧ ∀ n, 0 ≤ (l.contrib.find? n).getD 0 := by
  have key : ∀ P : Str → Prop, 0 ≤ ((usedBeam c b).map (fun ray => (reqs.map
        (secondaryTerm pf fuel L srt c o k i t P (behind pf fuel L c ray))).sum)).sum := by
    intro P
    refine List.sum_nonneg ?_
    intro v hv
    obtain ⟨ray, hray, rfl⟩ := List.mem_map.1 hv
    refine List.sum_nonneg ?_
    intro v hv
    obtain ⟨req, -, rfl⟩ := List.mem_map.1 hv
    have hw : 0 ≤ (behind pf fuel L c ray).2 := mul_nonneg (hb ray hray) (C115_beam hs _).1
    unfold secondaryTerm
    split
    · exact le_rfl
    rename_i f hf
    split
    swap
    · exact le_rfl
    rename_i hh
    have hi0 : i = 0 := by have := hh.2.2.1; omega
    refine List.sum_nonneg ?_
    intro v hv
    obtain ⟨j, hj, rfl⟩ := List.mem_map.1 hv
    have hj0 : j = 0 := by have := List.mem_range.1 hj; omega
    refine List.sum_nonneg ?_
    intro v hv
    obtain ⟨s, hs', rfl⟩ := List.mem_map.1 hv
    split
    swap
    · exact le_rfl
    unfold contribution
    split
    · exact le_rfl
    split
    · exact le_rfl
    rename_i f' hf'
    rw [if_neg (by simp [hi0, hj0])]
    have hsrc := source_nonneg pf fuel L c srt hs o j hw hs'
    have hf'' : 0 ≤ f'.rate := by
      exact excitedLines_rate pf fuel L c hL hs _ (SMap.mem_of_find? hf')
    have hfrac : 0 ≤ elementFraction pf fuel L c o i req.element := by
      unfold elementFraction
      split
      · cases hf : (sampleComposition pf fuel L c i).find? req.element with
        | none => simp
        | some v => exact sampleComposition_nonneg hs i _ (SMap.mem_of_find? hf)
      · norm_num
    subst hi0
    subst hj0
    exact mul_nonneg (mul_nonneg (mul_nonneg hsrc hf'') (div_nonneg hfrac (by linarith)))
      (C141_same_layer_nonneg pf fuel L c 0 _ _ _)
  constructor
  · have h1 := C84_secondary pf fuel L srt c o g hL reqs hp b r h k i t ht
    rw [hl] at h1
    change l.secondary = _ at h1
    rw [h1]
    exact key _
  · intro n
    have h1 := C84_by_source pf fuel L srt c o g hL reqs hp b r h k i t ht n
    rw [hl] at h1
    change (l.contrib.find? n).getD 0 = _ at h1
    rw [h1]
    exact key _

end api

/-! ### The hypotheses are met -/

/-- Two equal layers of iron of mass thickness `d`. -/
noncomputable def feTwo (d : ℝ) : Config ℝ Unit :=
  { Config.new with sample := [Layer.new "Fe" 1 d 1, Layer.new "Fe" 1 d 1], referenceLayer := some 0 }

theorem feTwo_composition (d : ℝ) (i : Nat) (hi : i < 2) :
    sampleComposition feParser 1 feLibrary (feTwo d) i = [("Fe", 1)] := by
  have hl : (feTwo d).sample[i]? = some (Layer.new "Fe" 1 d 1) := by
    interval_cases i <;> rfl
  apply sampleComposition_eq hl
  unfold layerComposition
  rw [if_neg (by simp [Layer.new])]
  show Library.compWith feParser feLibrary [] (0 + 1) "Fe" = _
  unfold Library.compWith Library.formula feParser
  rw [if_pos rfl, Outcome.ok_bind]
  have hm : Library.masses feLibrary [("Fe", 1)] = some [("Fe", 1 * 56)] := by
    have h1 : feLibrary.dict.find? "Fe" = some 0 := rfl
    have h2 : feLibrary.elements[0]? = some ⟨"Fe", 56, feElement⟩ := rfl
    simp [Library.masses, h1, h2]
  rw [hm]
  simp [SMap.total]

theorem feTwo_mu : ∃ M : ℝ, 0 < M ∧ ∀ d i, i < 2 → sampleMu feParser 1 feLibrary (feTwo d) i 10 = M := by
  obtain ⟨m, hm, -⟩ := fe_mu
  obtain ⟨t1, t2, t3, t4⟩ := fe_total hm
  refine ⟨m.coherent + m.compton + m.pair + m.photoelectric, by linarith, ?_⟩
  intro d i hi
  have hl : (feTwo d).sample[i]? = some (Layer.new "Fe" 1 d 1) := by
    interval_cases i <;> rfl
  unfold sampleMu
  rw [hl]
  simp only
  rw [feTwo_composition d i hi]
  unfold layerMu
  rw [if_pos (by simp)]
  unfold Library.mixMu Library.amounts
  rw [if_pos rfl, Outcome.ok_bind]
  have hd : feLibrary.dict.find? "Fe" = some 0 := rfl
  have hv : vget feLibrary.elements 0 = .ok ⟨"Fe", 56, feElement⟩ := rfl
  unfold Library.mixSum
  rw [hd]
  dsimp only
  rw [hv, Outcome.ok_bind]
  dsimp only
  rw [hm, Outcome.ok_bind]
  simp [Library.mixSum, valueOr0, Outcome.pure_eq, Outcome.ok_bind]

/-- The hypotheses of the theorems above hold for two layers of iron with a suitable thickness, and for the scattered beam
as source. -/
theorem feTwo_sensible : ∃ d M : ℝ, 0 < sinIn (feTwo d) ∧ 0 < sinOut (feTwo d) ∧ 0 < M ∧
    (∀ i, i < 2 → sampleMu feParser 1 feLibrary (feTwo d) i 10 = M) ∧
    (∀ k, 0 ≤ sampleMu feParser 1 feLibrary (feTwo d) k 10) ∧ (∀ k, 0 ≤ massThicknessOf (feTwo d) k) ∧
    0 < massThicknessOf (feTwo d) 0 ∧ 0 < massThicknessOf (feTwo d) 1 ∧ M / sinIn (feTwo d) ≠ M ∧ M / sinOut (feTwo d) ≠ M ∧
    0.01 ≤ (M / sinIn (feTwo d) + M / sinOut (feTwo d)) * massThicknessOf (feTwo d) 0 ∧
    (M / sinIn (feTwo d) + M / sinOut (feTwo d)) * massThicknessOf (feTwo d) 0 ≤ 10 ∧
    1 / 1000 ≤ Real.exp (-(M * massThicknessOf (feTwo d) 0 / sinOut (feTwo d))) := by
  obtain ⟨M, hM, h⟩ := feTwo_mu
  have hin : ∀ d, sinIn (feTwo d) = √2 / 2 := by
    intro d
    have : sinIn (feTwo d) = Real.sin (45 * (Real.pi / 180)) := rfl
    rw [this, show (45 : ℝ) * (Real.pi / 180) = Real.pi / 4 by ring, Real.sin_pi_div_four]
  have hout : ∀ d, sinOut (feTwo d) = √2 / 2 := by
    intro d
    have : sinOut (feTwo d) = Real.sin (45 * (Real.pi / 180)) := rfl
    rw [this, show (45 : ℝ) * (Real.pi / 180) = Real.pi / 4 by ring, Real.sin_pi_div_four]
  have s2 : (√2 : ℝ) * √2 = 2 := Real.mul_self_sqrt (by norm_num)
  have s0 : (0 : ℝ) < √2 := by positivity
  have s1 : (√2 : ℝ) < 3 / 2 := by nlinarith
  have s3 : (1 : ℝ) < √2 := by nlinarith
  have hq : M / (√2 / 2) = M * √2 := by
    field_simp
    nlinarith
  have m0 : massThicknessOf (feTwo (1 / M)) 0 = 1 / M := by
    unfold massThicknessOf
    simp [feTwo, Layer.new]
  have m1 : massThicknessOf (feTwo (1 / M)) 1 = 1 / M := by
    unfold massThicknessOf
    simp [feTwo, Layer.new]
  have m2 : ∀ k, massThicknessOf (feTwo (1 / M)) (k + 2) = 0 := by
    intro k
    unfold massThicknessOf
    simp [feTwo]
  have n2 : ∀ k, sampleMu feParser 1 feLibrary (feTwo (1 / M)) (k + 2) 10 = 0 := by
    intro k
    unfold sampleMu
    simp [feTwo]
  have hp : 0 < 1 / M := by positivity
  have hne : M * √2 ≠ M := by
    intro hh
    nlinarith
  have hM1 : M * (1 / M) = 1 := by field_simp
  refine ⟨1 / M, M, ?_, ?_, hM, h (1 / M), ?_, ?_, ?_, ?_, ?_, ?_, ?_, ?_, ?_⟩
  · rw [hin]; positivity
  · rw [hout]; positivity
  · intro k
    match k with
    | 0 => rw [h _ 0 (by norm_num)]; exact hM.le
    | 1 => rw [h _ 1 (by norm_num)]; exact hM.le
    | k + 2 => rw [n2]
  · intro k
    match k with
    | 0 => rw [m0]; exact hp.le
    | 1 => rw [m1]; exact hp.le
    | k + 2 => rw [m2]
  · rw [m0]; exact hp
  · rw [m1]; exact hp
  · rw [hin, hq]; exact hne
  · rw [hout, hq]; exact hne
  · rw [hin, hout, hq, m0]
    norm_num
    field_simp
    nlinarith
  · rw [hin, hout, hq, m0]
    field_simp
    nlinarith
  · rw [hout, m0, hM1]
    have : -(1 / (√2 / 2)) = -√2 := by
      field_simp
      nlinarith
    rw [this]
    have e := Real.add_one_le_exp (√2 : ℝ)
    rw [Real.exp_neg, one_div]
    apply inv_anti₀ (Real.exp_pos _)
    have : Real.exp (√2 : ℝ) ≤ Real.exp 2 := Real.exp_le_exp.2 (by linarith)
    have e2 : Real.exp 2 = Real.exp 1 ^ 2 := by rw [← Real.exp_nat_mul]; norm_num
    have := Real.exp_one_lt_d9
    have := Real.exp_pos 1
    nlinarith

/-- The hypotheses of `C141_one_layer` hold for a calculation with secondary excitation that returns a line. -/
example (srt : List (String × ℝ) → List (String × ℝ)) (hs : Library.SortsByEnergy srt) :
    ∃ r l, fluorescence feParser 3 feLibrary srt feConfig ⟨1, true, 0⟩ true Beam.new [.ok ⟨"Fe", "K", 0⟩] = .ok r ∧
      leaf? r "Fe K" 0 "KL3".toList = some l ∧ 0 ≤ l.secondary := by
  obtain ⟨r, h1, h2, h3, h4⟩ := fe_result_secondary 2 srt hs 0 1 (by norm_num)
  obtain ⟨l, h5⟩ := Option.isSome_iff_exists.1 h2
  have e3 : 0 < sinIn feConfig := by
    have : sinIn feConfig = Real.sin (45 * (Real.pi / 180)) := rfl
    rw [this, show (45 : ℝ) * (Real.pi / 180) = Real.pi / 4 by ring, Real.sin_pi_div_four]
    positivity
  refine ⟨r, l, h1, h5, (C141_one_layer feParser 3 feLibrary feConfig srt ⟨1, true, 0⟩ true h3 (feSensible 2) e3 rfl
    [⟨"Fe", "K", 0⟩] (by decide) Beam.new ?_ r h1 "Fe K" 0 "KL3".toList (by decide) l h5).1⟩
  intro ray hray
  unfold usedBeam at hray
  rw [if_pos (by simp [Beam.new])] at hray
  simp only [feConfig, Config.new, List.map_cons, List.map_nil, List.mem_singleton] at hray
  subst hray
  norm_num

end Multilayer
end Fisx
