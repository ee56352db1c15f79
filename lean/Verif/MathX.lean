import Verif.MathL0

/-!
# `Math::deBoerX` against the double integral it stands for (C137)
-/

set_option linter.unusedSectionVars false

namespace Fisx
namespace MathFn

open MeasureTheory Set Filter Topology

/-- The formula of fisx_math.cpp:423-491 with the values D1, D2, D3 of `deBoerD`. -/
noncomputable def formulaV (p q d1 d2 m1 m2 b D1 D2 D3 : ℝ) : ℝ :=
  Real.exp ((q - m1) * d1 - (p + m2) * d2 - b) *
    (m2 / (p * (p * m1 + q * m2)) * D1 + (m1 / (q * (p * m1 + q * m2)) * D2 - D3 / (p * q)))

/-- The formula with the exact exponential integrals, as a sum of three terms. -/
noncomputable def exactV (p q m1 m2 b x y : ℝ) : ℝ :=
  m2 / (p * (p * m1 + q * m2)) * (Real.exp ((p * m1 + q * m2) / m2 * x + p / m2 * b)
      * pvE1 ((1 + p / m2) * (m1 * x + b + m2 * y)))
    + m1 / (q * (p * m1 + q * m2)) * (Real.exp (-((p * m1 + q * m2) / m1 * y) - q / m1 * b)
      * pvE1 ((1 - q / m1) * (m1 * x + b + m2 * y)))
    - Real.exp (q * x - p * y) * trueE1 (m1 * x + b + m2 * y) / (p * q)

/-- Its derivative in x. -/
noncomputable def exactU (p q m1 m2 b x y : ℝ) : ℝ :=
  (Real.exp ((p * m1 + q * m2) / m2 * x + p / m2 * b) * pvE1 ((1 + p / m2) * (m1 * x + b + m2 * y))
    - Real.exp (q * x - p * y) * trueE1 (m1 * x + b + m2 * y)) / p

theorem formulaV_exact {p q d1 d2 m1 m2 b : ℝ} (hm1 : 0 < m1) (hm2 : 0 < m2) :
    formulaV p q d1 d2 m1 m2 b
      (Real.exp ((1 + p / m2) * (m1 * d1 + b + m2 * d2)) * pvE1 ((1 + p / m2) * (m1 * d1 + b + m2 * d2)))
      (Real.exp ((1 - q / m1) * (m1 * d1 + b + m2 * d2)) * pvE1 ((1 - q / m1) * (m1 * d1 + b + m2 * d2)))
      (Real.exp (m1 * d1 + b + m2 * d2) * trueE1 (m1 * d1 + b + m2 * d2)) = exactV p q m1 m2 b d1 d2 := by
  have e1 : Real.exp ((p * m1 + q * m2) / m2 * d1 + p / m2 * b)
      = Real.exp ((q - m1) * d1 - (p + m2) * d2 - b) * Real.exp ((1 + p / m2) * (m1 * d1 + b + m2 * d2)) := by
    rw [← Real.exp_add]; congr 1; field_simp; ring
  have e2 : Real.exp (-((p * m1 + q * m2) / m1 * d2) - q / m1 * b)
      = Real.exp ((q - m1) * d1 - (p + m2) * d2 - b) * Real.exp ((1 - q / m1) * (m1 * d1 + b + m2 * d2)) := by
    rw [← Real.exp_add]; congr 1; field_simp; ring
  have e3 : Real.exp (q * d1 - p * d2)
      = Real.exp ((q - m1) * d1 - (p + m2) * d2 - b) * Real.exp (m1 * d1 + b + m2 * d2) := by
    rw [← Real.exp_add]; congr 1; ring
  unfold formulaV exactV
  rw [e1, e2, e3]
  ring

theorem lin_hasDeriv (c a : ℝ) (x : ℝ) : HasDerivAt (fun x : ℝ => c * x + a) c x := by
  simpa using ((hasDerivAt_id x).const_mul c).add_const a

theorem exactV_hasDeriv {p q m1 m2 b x y : ℝ} (hp : p ≠ 0) (hq : q ≠ 0) (hm1 : 0 < m1) (hm2 : 0 < m2)
    (hS : p * m1 + q * m2 ≠ 0) (hc1 : 1 + p / m2 ≠ 0) (hc2 : 1 - q / m1 ≠ 0) (hh : 0 < m1 * x + b + m2 * y) :
    HasDerivAt (fun x => exactV p q m1 m2 b x y) (exactU p q m1 m2 b x y) x := by
  have hl : HasDerivAt (fun x : ℝ => m1 * x + b + m2 * y) m1 x := by
    simpa [add_assoc] using lin_hasDeriv m1 (b + m2 * y) x
  have h1 := (pvE1_hasDeriv (mul_ne_zero hc1 hh.ne')).comp x (hl.const_mul (1 + p / m2))
  have h2 := (pvE1_hasDeriv (mul_ne_zero hc2 hh.ne')).comp x (hl.const_mul (1 - q / m1))
  have h3 := (trueE1_hasDeriv hh).comp x hl
  have g1 := (lin_hasDeriv ((p * m1 + q * m2) / m2) (p / m2 * b) x).exp
  have g3 : HasDerivAt (fun x : ℝ => Real.exp (q * x - p * y)) (Real.exp (q * x - p * y) * q) x := by
    have := (lin_hasDeriv q (-(p * y)) x).exp
    simpa [sub_eq_add_neg] using this
  have h := ((((g1.mul h1).const_mul (m2 / (p * (p * m1 + q * m2)))).add
    ((h2.const_mul (Real.exp (-((p * m1 + q * m2) / m1 * y) - q / m1 * b))).const_mul (m1 / (q * (p * m1 + q * m2)))))).sub
    ((g3.mul h3).div_const (p * q))
  refine (h.congr_of_eventuallyEq ?_).congr_deriv ?_
  · filter_upwards with z
    simp [exactV]
  have f1 : Real.exp ((p * m1 + q * m2) / m2 * x + p / m2 * b) * Real.exp (-((1 + p / m2) * (m1 * x + b + m2 * y)))
      = Real.exp (q * x - p * y) * Real.exp (-(m1 * x + b + m2 * y)) := by
    rw [← Real.exp_add, ← Real.exp_add]; congr 1; field_simp; ring
  have f2 : Real.exp (-((p * m1 + q * m2) / m1 * y) - q / m1 * b) * Real.exp (-((1 - q / m1) * (m1 * x + b + m2 * y)))
      = Real.exp (q * x - p * y) * Real.exp (-(m1 * x + b + m2 * y)) := by
    rw [← Real.exp_add, ← Real.exp_add]; congr 1; field_simp; ring
  unfold exactU
  simp only [Function.comp_apply]
  generalize pvE1 ((1 + p / m2) * (m1 * x + b + m2 * y)) = T1
  generalize pvE1 ((1 - q / m1) * (m1 * x + b + m2 * y)) = T2
  generalize trueE1 (m1 * x + b + m2 * y) = T3
  generalize Real.exp (-((1 + p / m2) * (m1 * x + b + m2 * y))) = X1 at *
  generalize Real.exp (-((1 - q / m1) * (m1 * x + b + m2 * y))) = X2 at *
  generalize Real.exp (-(m1 * x + b + m2 * y)) = X3 at *
  generalize Real.exp ((p * m1 + q * m2) / m2 * x + p / m2 * b) = Y1 at *
  generalize Real.exp (-((p * m1 + q * m2) / m1 * y) - q / m1 * b) = Y2 at *
  generalize Real.exp (q * x - p * y) = Y3 at *
  clear h h1 h2 h3 g1 g3 hl
  generalize m1 * x + b + m2 * y = h at *
  have r1 : -(X1 / ((1 + p / m2) * h)) * ((1 + p / m2) * m1) = -(X1 * m1 / h) := by
    have := hh.ne'
    generalize 1 + p / m2 = c at *
    field_simp
  have r2 : -(X2 / ((1 - q / m1) * h)) * ((1 - q / m1) * m1) = -(X2 * m1 / h) := by
    have := hh.ne'
    generalize 1 - q / m1 = c at *
    field_simp
  rw [r1, r2]
  have s1 : Y1 * -(X1 * m1 / h) = -(Y3 * X3 * m1 / h) := by rw [← f1]; ring
  have s2 : Y2 * -(X2 * m1 / h) = -(Y3 * X3 * m1 / h) := by rw [← f2]; ring
  rw [s1, s2]
  generalize hSd : p * m1 + q * m2 = S at *
  have := hh.ne'
  field_simp
  rw [← hSd]
  ring

theorem exactU_hasDeriv {p q m1 m2 b x y : ℝ} (hp : p ≠ 0) (hm2 : 0 < m2)
    (hc1 : 1 + p / m2 ≠ 0) (hh : 0 < m1 * x + b + m2 * y) :
    HasDerivAt (fun y => exactU p q m1 m2 b x y) (Real.exp (q * x - p * y) * trueE1 (m1 * x + b + m2 * y)) y := by
  have hl : HasDerivAt (fun y : ℝ => m1 * x + b + m2 * y) m2 y := by
    simpa [add_comm] using lin_hasDeriv m2 (m1 * x + b) y
  have h1 := (pvE1_hasDeriv (mul_ne_zero hc1 hh.ne')).comp y (hl.const_mul (1 + p / m2))
  have h3 := (trueE1_hasDeriv hh).comp y hl
  have g3 : HasDerivAt (fun y : ℝ => Real.exp (q * x - p * y)) (Real.exp (q * x - p * y) * (-p)) y := by
    have := (lin_hasDeriv (-p) (q * x) y).exp
    simpa [sub_eq_add_neg, add_comm] using this
  have h := ((h1.const_mul (Real.exp ((p * m1 + q * m2) / m2 * x + p / m2 * b))).sub (g3.mul h3)).div_const p
  refine (h.congr_of_eventuallyEq ?_).congr_deriv ?_
  · filter_upwards with z
    simp [exactU]
  have f1 : Real.exp ((p * m1 + q * m2) / m2 * x + p / m2 * b) * Real.exp (-((1 + p / m2) * (m1 * x + b + m2 * y)))
      = Real.exp (q * x - p * y) * Real.exp (-(m1 * x + b + m2 * y)) := by
    rw [← Real.exp_add, ← Real.exp_add]; congr 1; field_simp; ring
  simp only [Function.comp_apply]
  generalize trueE1 (m1 * x + b + m2 * y) = T3
  generalize Real.exp (-((1 + p / m2) * (m1 * x + b + m2 * y))) = X1 at *
  generalize Real.exp (-(m1 * x + b + m2 * y)) = X3 at *
  generalize Real.exp ((p * m1 + q * m2) / m2 * x + p / m2 * b) = Y1 at *
  generalize Real.exp (q * x - p * y) = Y3 at *
  clear h h1 h3 g3 hl
  generalize m1 * x + b + m2 * y = h at *
  have r1 : -(X1 / ((1 + p / m2) * h)) * ((1 + p / m2) * m2) = -(X1 * m2 / h) := by
    have := hh.ne'
    generalize 1 + p / m2 = c at *
    field_simp
  rw [r1]
  have s1 : Y1 * -(X1 * m2 / h) = -(Y3 * X3 * m2 / h) := by rw [← f1]; ring
  rw [s1]
  have := hh.ne'
  field_simp
  ring

/-- The value at the corner without intermediate layer, fisx_math.cpp:393-421. -/
noncomputable def corner00 (p q m1 m2 : ℝ) : ℝ :=
  -(m2 / p * Real.log (1 + p / m2) + m1 / q * Real.log (1 - q / m1)) / (p * m1 + q * m2)

theorem exactV_tendsto00 {p q m1 m2 : ℝ} (hp : p ≠ 0) (hq : q ≠ 0) (hm1 : 0 < m1) (hm2 : 0 < m2)
    (hS : p * m1 + q * m2 ≠ 0) (hc1 : 1 + p / m2 ≠ 0) (hc2 : 1 - q / m1 ≠ 0) :
    Tendsto (fun x => exactV p q m1 m2 0 x 0) (𝓝[>] 0) (𝓝 (corner00 p q m1 m2)) := by
  -- differences of exponential integrals
  have key : ∀ c : ℝ, c ≠ 0 → Tendsto (fun x => pvE1 (c * (m1 * x)) - trueE1 (m1 * x)) (𝓝[>] 0) (𝓝 (-Real.log c)) := by
    intro c hc
    have hcc : Continuous (fun x : ℝ => ePhi (c * (m1 * x)) - ePhi (m1 * x) - Real.log c) := by
      have := ePhi_continuous
      fun_prop
    have ht := (hcc.tendsto 0).mono_left (nhdsWithin_le_nhds (s := Ioi 0))
    simp only [mul_zero, sub_self, zero_sub] at ht
    refine ht.congr' ?_
    filter_upwards [self_mem_nhdsWithin] with x hx
    have hx0 : 0 < m1 * x := mul_pos hm1 hx
    rw [← pvE1_pos hx0]
    unfold pvE1
    rw [Real.log_mul hc hx0.ne']
    ring
  have small : ∀ s : ℝ, Tendsto (fun x => (Real.exp (s * x) - 1) * trueE1 (m1 * x)) (𝓝[>] 0) (𝓝 0) := by
    intro s
    have hb := (mul_trueE1_tendsto hm1).const_mul (2 * |s|)
    rw [mul_zero] at hb
    have hev : Ioo (0 : ℝ) (1 / (|s| + 1)) ∈ 𝓝[>] (0 : ℝ) := Ioo_mem_nhdsGT (by positivity)
    refine squeeze_zero_norm' ?_ hb
    filter_upwards [hev] with r hr
    have hr0 : 0 < r := hr.1
    have hE := trueE1_nonneg _ (mul_pos hm1 hr0)
    have har : |s * r| ≤ 1 := by
      rw [abs_mul, abs_of_pos hr0]
      have := hr.2.le
      rw [le_div_iff₀ (by positivity)] at this
      nlinarith
    have hx := Real.abs_exp_sub_one_le har
    rw [abs_mul, abs_of_pos hr0] at hx
    rw [norm_mul, Real.norm_eq_abs, Real.norm_eq_abs, abs_of_nonneg hE]
    calc _ ≤ 2 * (|s| * r) * trueE1 (m1 * r) := mul_le_mul_of_nonneg_right hx hE
      _ = _ := by ring
  have one : ∀ s : ℝ, Tendsto (fun x : ℝ => Real.exp (s * x)) (𝓝[>] 0) (𝓝 1) := by
    intro s
    have h : Continuous (fun x : ℝ => Real.exp (s * x)) := by fun_prop
    have := h.tendsto 0
    rw [mul_zero, Real.exp_zero] at this
    exact this.mono_left nhdsWithin_le_nhds
  set A := m2 / (p * (p * m1 + q * m2)) with hA
  set B := m1 / (q * (p * m1 + q * m2)) with hB
  have hAB : A + B = 1 / (p * q) := by
    rw [hA, hB]
    generalize hSd : p * m1 + q * m2 = S at *
    field_simp
    linarith
  have t := (((((one ((p * m1 + q * m2) / m2)).mul (key _ hc1)).const_mul A).add
    ((key _ hc2).const_mul B)).add ((small ((p * m1 + q * m2) / m2)).const_mul A)).sub
    ((small q).div_const (p * q))
  have hv : A * (1 * -Real.log (1 + p / m2)) + B * -Real.log (1 - q / m1) + A * 0 - 0 / (p * q) = corner00 p q m1 m2 := by
    unfold corner00
    rw [hA, hB]
    generalize hSd : p * m1 + q * m2 = S at *
    field_simp
    ring
  rw [hv] at t
  refine t.congr ?_
  intro x
  unfold exactV
  simp only [mul_zero, add_zero, neg_zero, sub_zero, Real.exp_zero]
  rw [← hA, ← hB]
  have : B = 1 / (p * q) - A := by linarith
  rw [this]
  ring

/-- The value V at a corner with exact exponential integrals. -/
noncomputable def cornerV (p q m1 m2 b x y : ℝ) : ℝ :=
  if b = 0 ∧ x = 0 ∧ y = 0 then corner00 p q m1 m2 else exactV p q m1 m2 b x y

theorem cornerV_tendsto {p q m1 m2 b y : ℝ} (hp : p ≠ 0) (hq : q ≠ 0) (hm1 : 0 < m1) (hm2 : 0 < m2)
    (hS : p * m1 + q * m2 ≠ 0) (hc1 : 1 + p / m2 ≠ 0) (hc2 : 1 - q / m1 ≠ 0) (hb : 0 ≤ b) (hy : 0 ≤ y) :
    Tendsto (fun x => exactV p q m1 m2 b x y) (𝓝[>] 0) (𝓝 (cornerV p q m1 m2 b 0 y)) := by
  unfold cornerV
  by_cases h : b = 0 ∧ (0 : ℝ) = 0 ∧ y = 0
  · rw [if_pos h]
    obtain ⟨rfl, -, rfl⟩ := h
    exact exactV_tendsto00 hp hq hm1 hm2 hS hc1 hc2
  · rw [if_neg h]
    have hh : 0 < m1 * 0 + b + m2 * y := by
      rcases hb.eq_or_lt with h1 | h1
      · rcases hy.eq_or_lt with h2 | h2
        · exact absurd ⟨h1.symm, rfl, h2.symm⟩ h
        · nlinarith [mul_pos hm2 h2]
      · nlinarith [mul_nonneg hm2.le hy]
    exact (exactV_hasDeriv hp hq hm1 hm2 hS hc1 hc2 hh).continuousAt.tendsto.mono_left nhdsWithin_le_nhds

/-- The radiation of a layer of mass thickness d2 that excites a layer of mass thickness d1 on the other side of a
layer with absorption b: x and y are the distances to the facing surfaces, the exponential integral is the average
over the directions. -/
noncomputable def crossIntegral (p q d1 d2 m1 m2 b : ℝ) : ℝ :=
  ∫ x in (0 : ℝ)..d1, ∫ y in (0 : ℝ)..d2, Real.exp (q * x - p * y) * ∫ t in Set.Ioi (m1 * x + b + m2 * y), Real.exp (-t) / t

theorem inner_cross {p q d2 m1 m2 b x : ℝ} (hp : p ≠ 0) (hm2 : 0 < m2)
    (hc1 : 1 + p / m2 ≠ 0) (hh : 0 < m1 * x + b) (hd2 : 0 ≤ d2) :
    (∫ y in (0 : ℝ)..d2, Real.exp (q * x - p * y) * ∫ t in Set.Ioi (m1 * x + b + m2 * y), Real.exp (-t) / t)
      = exactU p q m1 m2 b x d2 - exactU p q m1 m2 b x 0 := by
  have hpos : ∀ y ∈ uIcc 0 d2, 0 < m1 * x + b + m2 * y := by
    intro y hy
    rw [uIcc_of_le hd2] at hy
    have := mul_nonneg hm2.le hy.1
    linarith
  apply intervalIntegral.integral_eq_sub_of_hasDerivAt
  · intro y hy
    exact exactU_hasDeriv hp hm2 hc1 (hpos y hy)
  · apply ContinuousOn.intervalIntegrable
    intro y hy
    have h1 : ContinuousAt (fun y => trueE1 (m1 * x + b + m2 * y)) y :=
      ContinuousAt.comp (f := fun y => m1 * x + b + m2 * y) (trueE1_hasDeriv (hpos y hy)).continuousAt
        (by fun_prop)
    have h2 : ContinuousAt (fun y : ℝ => Real.exp (q * x - p * y)) y := by fun_prop
    exact (h2.mul h1).continuousWithinAt

theorem inner_cross_nonneg {p q d2 m1 m2 b x : ℝ} (hm2 : 0 < m2)
    (hh : 0 < m1 * x + b) (hd2 : 0 ≤ d2) :
    0 ≤ ∫ y in (0 : ℝ)..d2, Real.exp (q * x - p * y) * ∫ t in Set.Ioi (m1 * x + b + m2 * y), Real.exp (-t) / t := by
  rw [intervalIntegral.integral_of_le hd2]
  apply setIntegral_nonneg measurableSet_Ioc
  intro y hy
  have := mul_pos hm2 hy.1
  exact mul_nonneg (Real.exp_pos _).le (trueE1_nonneg _ (by linarith))

theorem crossIntegral_eq {p q d1 d2 m1 m2 b : ℝ} (hp : p ≠ 0) (hq : q ≠ 0) (hm1 : 0 < m1) (hm2 : 0 < m2)
    (hS : p * m1 + q * m2 ≠ 0) (hc1 : 1 + p / m2 ≠ 0) (hc2 : 1 - q / m1 ≠ 0) (hb : 0 ≤ b) (hd1 : 0 < d1) (hd2 : 0 ≤ d2) :
    crossIntegral p q d1 d2 m1 m2 b = cornerV p q m1 m2 b d1 d2 - cornerV p q m1 m2 b d1 0
      - cornerV p q m1 m2 b 0 d2 + cornerV p q m1 m2 b 0 0 := by
  have hpos : ∀ x, 0 < x → 0 < m1 * x + b := fun x hx => by have := mul_pos hm1 hx; linarith
  have hpos' : ∀ x y, 0 < x → 0 ≤ y → 0 < m1 * x + b + m2 * y := fun x y hx hy => by
    have := hpos x hx; have := mul_nonneg hm2.le hy; linarith
  have hder : ∀ x, 0 < x → HasDerivAt (fun x => exactV p q m1 m2 b x d2 - exactV p q m1 m2 b x 0)
      (∫ y in (0 : ℝ)..d2, Real.exp (q * x - p * y) * ∫ t in Set.Ioi (m1 * x + b + m2 * y), Real.exp (-t) / t) x := by
    intro x hx
    rw [inner_cross hp hm2 hc1 (hpos x hx) hd2]
    exact (exactV_hasDeriv hp hq hm1 hm2 hS hc1 hc2 (hpos' x d2 hx hd2)).sub
      (exactV_hasDeriv hp hq hm1 hm2 hS hc1 hc2 (hpos' x 0 hx le_rfl))
  have hlim : Tendsto (fun x => exactV p q m1 m2 b x d2 - exactV p q m1 m2 b x 0) (𝓝[>] 0)
      (𝓝 (cornerV p q m1 m2 b 0 d2 - cornerV p q m1 m2 b 0 0)) :=
    (cornerV_tendsto hp hq hm1 hm2 hS hc1 hc2 hb hd2).sub (cornerV_tendsto hp hq hm1 hm2 hS hc1 hc2 hb le_rfl)
  have hint : IntervalIntegrable (fun x => ∫ y in (0 : ℝ)..d2, Real.exp (q * x - p * y)
      * ∫ t in Set.Ioi (m1 * x + b + m2 * y), Real.exp (-t) / t) volume 0 d1 := by
    rw [intervalIntegrable_iff_integrableOn_Ioc_of_le hd1.le]
    apply intervalIntegral.integrableOn_deriv_of_nonneg (g := Function.update
      (fun x => exactV p q m1 m2 b x d2 - exactV p q m1 m2 b x 0) 0 (cornerV p q m1 m2 b 0 d2 - cornerV p q m1 m2 b 0 0))
    · intro t ht
      rcases ht.1.eq_or_lt with h | h
      · subst h
        rw [continuousWithinAt_update_same]
        refine hlim.mono_left ?_
        apply nhdsWithin_mono
        intro z hz
        exact lt_of_le_of_ne hz.1.1 (Ne.symm hz.2)
      · apply ContinuousAt.continuousWithinAt
        rw [continuousAt_update_of_ne h.ne']
        exact (hder t h).continuousAt
    · intro t ht
      refine (hder t ht.1).congr_of_eventuallyEq ?_
      filter_upwards [Ioi_mem_nhds ht.1] with z hz
      exact Function.update_of_ne (show 0 < z from hz).ne' _ _
    · intro t ht
      exact inner_cross_nonneg hm2 (hpos t ht.1) hd2
  have h := intervalIntegral.integral_eq_sub_of_hasDerivAt_of_tendsto hd1 (fun t ht => hder t ht.1) hint hlim
    ((hder d1 hd1).continuousAt.tendsto.mono_left nhdsWithin_le_nhds)
  unfold crossIntegral
  rw [h]
  have n1 : ∀ y, cornerV p q m1 m2 b d1 y = exactV p q m1 m2 b d1 y := fun y => by
    unfold cornerV
    rw [if_neg (fun h => hd1.ne' h.2.1)]
  rw [n1, n1]
  ring

/-- The error of one corner: `errD x` bounds the error of exp(x) E1(x). -/
noncomputable def cornerError (p q m1 m2 b x y : ℝ) : ℝ :=
  if b = 0 ∧ x = 0 ∧ y = 0 then 0
  else Real.exp ((q - m1) * x - (p + m2) * y - b) *
    (m2 / |p * (p * m1 + q * m2)| * errD ((1 + p / m2) * (m1 * x + b + m2 * y))
      + m1 / |q * (p * m1 + q * m2)| * errD ((1 - q / m1) * (m1 * x + b + m2 * y))
      + errD (m1 * x + b + m2 * y) / |p * q|)

theorem corner_pos {m1 m2 b x y : ℝ} (hm1 : 0 < m1) (hm2 : 0 < m2) (hb : 0 ≤ b) (hx : 0 ≤ x) (hy : 0 ≤ y)
    (h0 : ¬ (b = 0 ∧ x = 0 ∧ y = 0)) : 0 < m1 * x + b + m2 * y := by
  have e1 := mul_nonneg hm1.le hx
  have e2 := mul_nonneg hm2.le hy
  rcases (add_nonneg (add_nonneg e1 hb) e2).eq_or_lt with h | h
  · exfalso
    apply h0
    have a1 : m1 * x = 0 := by linarith
    have a2 : m2 * y = 0 := by linarith
    exact ⟨by linarith, (mul_eq_zero.1 a1).resolve_left hm1.ne', (mul_eq_zero.1 a2).resolve_left hm2.ne'⟩
  · exact h

theorem deBoerV_accuracy {p q x y m1 m2 b : ℝ} (hp : p ≠ 0) (hq : q ≠ 0) (hm1 : 0 < m1) (hm2 : 0 < m2)
    (hS : p * m1 + q * m2 ≠ 0) (hc1 : 1 + p / m2 ≠ 0) (hc2 : 1 - q / m1 ≠ 0) (hb : 0 ≤ b) (hx : 0 ≤ x) (hy : 0 ≤ y) :
    ∃ v, deBoerV p q x y m1 m2 b = .ok v ∧ |v - cornerV p q m1 m2 b x y| ≤ cornerError p q m1 m2 b x y := by
  unfold deBoerV cornerV cornerError
  by_cases h0 : b = 0 ∧ x = 0 ∧ y = 0
  · rw [if_pos h0, if_pos h0, if_pos h0]
    refine ⟨corner00 p q m1 m2, ?_, by simp⟩
    unfold deBoerV00 fdiv flog
    rw [if_neg hm1.ne', if_neg hm2.ne', if_neg hp, if_neg hq]
    simp only [Option.bind_eq_bind, Option.bind_some, Real.log_abs]
    rw [if_neg (not_le.2 (abs_pos.2 hc1)), if_neg (not_le.2 (abs_pos.2 hc2))]
    simp [hS, finiteOr, corner00]
  · rw [if_neg h0, if_neg h0, if_neg h0]
    have hh := corner_pos hm1 hm2 hb hx hy h0
    obtain ⟨D1, hD1, c1⟩ := deBoerD_pv (mul_ne_zero hc1 hh.ne')
    obtain ⟨D2, hD2, c2⟩ := deBoerD_pv (mul_ne_zero hc2 hh.ne')
    obtain ⟨D3, hD3, c3⟩ := deBoerD_pv hh.ne'
    rw [pvE1_pos hh] at c3
    refine ⟨formulaV p q x y m1 m2 b D1 D2 D3, ?_, ?_⟩
    · unfold fdiv
      rw [if_neg hm1.ne', if_neg hm2.ne', if_neg (mul_ne_zero hp hS), if_neg (mul_ne_zero hq hS)]
      simp only [finiteOr, Outcome.ok_bind, hD1, hD2, hD3, Option.map_some, Option.bind_some,
        if_neg (mul_ne_zero hp hq), formulaV, Outcome.pure_eq]
    · rw [← formulaV_exact hm1 hm2]
      unfold formulaV
      have hE := Real.exp_pos ((q - m1) * x - (p + m2) * y - b)
      generalize Real.exp ((1 + p / m2) * (m1 * x + b + m2 * y)) * pvE1 ((1 + p / m2) * (m1 * x + b + m2 * y)) = T1 at *
      generalize Real.exp ((1 - q / m1) * (m1 * x + b + m2 * y)) * pvE1 ((1 - q / m1) * (m1 * x + b + m2 * y)) = T2 at *
      generalize Real.exp (m1 * x + b + m2 * y) * trueE1 (m1 * x + b + m2 * y) = T3 at *
      generalize Real.exp ((q - m1) * x - (p + m2) * y - b) = E at *
      have e : E * (m2 / (p * (p * m1 + q * m2)) * D1 + (m1 / (q * (p * m1 + q * m2)) * D2 - D3 / (p * q)))
          - E * (m2 / (p * (p * m1 + q * m2)) * T1 + (m1 / (q * (p * m1 + q * m2)) * T2 - T3 / (p * q)))
          = E * (m2 / (p * (p * m1 + q * m2)) * (D1 - T1) + m1 / (q * (p * m1 + q * m2)) * (D2 - T2)
            - (D3 - T3) / (p * q)) := by ring
      rw [e, abs_mul, abs_of_pos hE]
      apply mul_le_mul_of_nonneg_left _ hE.le
      refine le_trans (abs_sub _ _) (add_le_add (le_trans (abs_add_le _ _) (add_le_add ?_ ?_)) ?_)
      · rw [abs_mul, abs_div, abs_of_pos hm2]
        exact mul_le_mul_of_nonneg_left c1 (by positivity)
      · rw [abs_mul, abs_div, abs_of_pos hm1]
        exact mul_le_mul_of_nonneg_left c2 (by positivity)
      · rw [abs_div]
        exact div_le_div_of_nonneg_right c3 (abs_nonneg _)

/-- **C137** (partial) For two different layers, `deBoerX` is the double integral of the enhancement, with the errors
of the exponential integrals as only difference. This covers the two uses made of it, upwards (p and q positive) and
downwards (p and q negative). Missing: that the error is small, which fails when one of the coefficients `mu2j + p`
and `mu1j - q` is negative, see `C137_cross_layer_violated`. -/
theorem C137_cross_layer_partial {p q d1 d2 mu1j mu2j mubjdt : ℝ} (hp : p ≠ 0) (hq : q ≠ 0) (h1 : 0 < mu1j)
    (h2 : 0 < mu2j) (hS : p * mu1j + q * mu2j ≠ 0) (hc1 : p ≠ -mu2j) (hc2 : q ≠ mu1j) (hb : 0 ≤ mubjdt)
    (hd1 : 0 < d1) (hd2 : 0 ≤ d2) :
    ∃ v, deBoerX p q d1 d2 mu1j mu2j mubjdt = .ok v ∧
      |v - ∫ x in (0 : ℝ)..d1, ∫ y in (0 : ℝ)..d2,
          Real.exp (q * x - p * y) * ∫ t in Set.Ioi (mu1j * x + mubjdt + mu2j * y), Real.exp (-t) / t| ≤
        cornerError p q mu1j mu2j mubjdt d1 d2 + cornerError p q mu1j mu2j mubjdt d1 0
          + cornerError p q mu1j mu2j mubjdt 0 d2 + cornerError p q mu1j mu2j mubjdt 0 0 := by
  have k1 : 1 + p / mu2j ≠ 0 := by
    have : (1 + p / mu2j) = (mu2j + p) / mu2j := by field_simp
    rw [this]
    exact div_ne_zero (fun h => hc1 (by linarith)) h2.ne'
  have k2 : 1 - q / mu1j ≠ 0 := by
    have : (1 - q / mu1j) = (mu1j - q) / mu1j := by field_simp
    rw [this]
    exact div_ne_zero (fun h => hc2 (by linarith)) h1.ne'
  have acc := fun {x y : ℝ} (hx : 0 ≤ x) (hy : 0 ≤ y) => deBoerV_accuracy hp hq h1 h2 hS k1 k2 hb hx hy
  obtain ⟨va, ea, ba⟩ := acc hd1.le hd2
  obtain ⟨vb, eb, bb⟩ := acc hd1.le (le_refl (0 : ℝ))
  obtain ⟨vc, ec, bc⟩ := acc (le_refl (0 : ℝ)) hd2
  obtain ⟨ve, ee, be⟩ := acc (le_refl (0 : ℝ)) (le_refl (0 : ℝ))
  refine ⟨va - vb - vc + ve, ?_, ?_⟩
  · unfold deBoerX
    rw [ea, eb, ec, ee]
    rfl
  · change |_ - crossIntegral p q d1 d2 mu1j mu2j mubjdt| ≤ _
    rw [crossIntegral_eq hp hq h1 h2 hS k1 k2 hb hd1 hd2]
    rw [abs_le] at *
    constructor <;> linarith [ba.1, ba.2, bb.1, bb.2, bc.1, bc.2, be.1, be.2]

/-- The hypotheses are met, for both signs. -/
example : (1 : ℝ) ≠ -4 ∧ (2 : ℝ) ≠ 3 ∧ (1 : ℝ) * 3 + 2 * 4 ≠ 0 ∧ (-1 : ℝ) * 3 + -2 * 4 ≠ 0 := by norm_num

/-- The error is small when the arguments are positive. -/
theorem C137_error_small_partial {p q x y mu1j mu2j mubjdt : ℝ} (h1 : 0 < mu1j) (h2 : 0 < mu2j) (hc1 : 0 < mu2j + p)
    (hc2 : 0 < mu1j - q) (hb : 0 ≤ mubjdt) (hx : 0 ≤ x) (hy : 0 ≤ y) (h0 : ¬ (mubjdt = 0 ∧ x = 0 ∧ y = 0)) :
    cornerError p q mu1j mu2j mubjdt x y =
      1.2e-6 * Real.exp ((q - mu1j) * x - (p + mu2j) * y - mubjdt) / (mu1j * x + mubjdt + mu2j * y)
        * (mu2j ^ 2 / (|p * (p * mu1j + q * mu2j)| * (mu2j + p)) + mu1j ^ 2 / (|q * (p * mu1j + q * mu2j)| * (mu1j - q))
          + 1 / |p * q|) := by
  have hh := corner_pos h1 h2 hb hx hy h0
  unfold cornerError
  rw [if_neg h0]
  have k1 : (1 + p / mu2j) = (mu2j + p) / mu2j := by field_simp
  have k2 : (1 - q / mu1j) = (mu1j - q) / mu1j := by field_simp
  rw [k1, k2]
  have f1 : errD ((mu2j + p) / mu2j * (mu1j * x + mubjdt + mu2j * y))
      = 1.2e-6 / ((mu2j + p) / mu2j * (mu1j * x + mubjdt + mu2j * y)) := if_pos (by positivity)
  have f2 : errD ((mu1j - q) / mu1j * (mu1j * x + mubjdt + mu2j * y))
      = 1.2e-6 / ((mu1j - q) / mu1j * (mu1j * x + mubjdt + mu2j * y)) := if_pos (by positivity)
  have f3 : errD (mu1j * x + mubjdt + mu2j * y) = 1.2e-6 / (mu1j * x + mubjdt + mu2j * y) := if_pos hh
  rw [f1, f2, f3]
  have z4 := hh.ne'
  have z5 := hc1.ne'
  have z6 := hc2.ne'
  generalize mu1j * x + mubjdt + mu2j * y = h at *
  generalize mu2j + p = Z5 at *
  generalize mu1j - q = Z6 at *
  generalize Real.exp ((q - mu1j) * x - (p + mu2j) * y - mubjdt) = E at *
  have g1 : (1.2e-6 : ℝ) / (Z5 / mu2j * h) = 1.2e-6 / h * (mu2j / Z5) := by field_simp
  have g2 : (1.2e-6 : ℝ) / (Z6 / mu1j * h) = 1.2e-6 / h * (mu1j / Z6) := by field_simp
  rw [g1, g2, ← div_div, ← div_div]
  ring

/-- The neglected terms are below exp(y). -/
theorem e1Terms_error_exp {y : ℝ} (hy : 0 ≤ y) : ePhi 0 - ePhi (-y) - e1Terms y ≤ Real.exp y := by
  have hd : ∀ s : ℝ, HasDerivAt (fun y => Real.exp y - (ePhi 0 - ePhi (-y))) (Real.exp s - (-eSlope (-s))) s := by
    intro s
    have h1 := (ePhi_hasDeriv (-s)).comp s (hasDerivAt_neg s)
    refine ((Real.hasDerivAt_exp s).sub (h1.const_sub (ePhi 0))).congr_deriv ?_
    ring
  have hm : MonotoneOn (fun y => Real.exp y - (ePhi 0 - ePhi (-y))) (Ici 0) := by
    apply monotoneOn_of_deriv_nonneg (convex_Ici 0)
    · exact fun s _ => (hd s).continuousAt.continuousWithinAt
    · exact fun s _ => (hd s).differentiableAt.differentiableWithinAt
    · intro t ht
      rw [interior_Ici] at ht
      have ht0 : (0 : ℝ) < t := ht
      rw [(hd t).deriv, eSlope_of_ne (neg_ne_zero.2 ht0.ne'), neg_neg]
      have h := Real.add_one_le_exp (-t)
      have e : Real.exp t * Real.exp (-t) = 1 := by rw [← Real.exp_add]; simp
      have h2 := mul_le_mul_of_nonneg_left h (Real.exp_pos t).le
      rw [e] at h2
      have : -((Real.exp t - 1) / -t) = (Real.exp t - 1) / t := by rw [div_neg, neg_neg]
      rw [this, sub_nonneg, div_le_iff₀ ht0]
      linarith
  have h := hm (show (0 : ℝ) ∈ Ici 0 from self_mem_Ici) (show y ∈ Ici 0 from hy) hy
  simp only [neg_zero, sub_self, sub_zero, Real.exp_zero] at h
  have : 0 ≤ e1Terms y := by unfold e1Terms; positivity
  linarith

theorem deBoerD_neg {y : ℝ} (hy : 0 < y) :
    ∃ v, deBoerD (-y) = .ok (some v) ∧
      Real.exp (-y) * (y ^ 11 / 439084800 - 3e-9) ≤ v - Real.exp (-y) * pvE1 (-y) ∧
      v - Real.exp (-y) * pvE1 (-y) ≤ 1 + 3e-9 := by
  have hx : -y < 0 := by linarith
  refine ⟨Real.exp (-y) * (-0.577215664901532860 - e1Terms y - Real.log y), ?_, ?_⟩
  · unfold deBoerD
    rw [if_pos hx, E1_negative hx, neg_neg]
    rfl
  · rw [← mul_sub]
    have g := abs_le.1 ePhi_zero
    have l := (e1Terms_error hy.le).1
    have u := e1Terms_error_exp hy.le
    have hE := Real.exp_pos (-y)
    have hE1 : Real.exp (-y) ≤ 1 := Real.exp_le_one_iff.2 hx.le
    have e : Real.exp (-y) * Real.exp y = 1 := by rw [← Real.exp_add]; simp
    unfold pvE1
    rw [Real.log_neg_eq_log]
    norm_num at g ⊢
    constructor
    · apply mul_le_mul_of_nonneg_left _ hE.le
      linarith [g.1, g.2]
    · have h2 : Real.exp (-y) * (-(288607832450766430 / 500000000000000000) - e1Terms y - Real.log y - (ePhi (-y) - Real.log y))
          ≤ Real.exp (-y) * (Real.exp y + 3 / 1000000000) := by
        apply mul_le_mul_of_nonneg_left _ hE.le
        norm_num
        linarith [g.1, g.2]
      rw [mul_add, e] at h2
      norm_num at h2
      nlinarith

/-- **C137** (violation) With mu1j = mu2j = 1, p = 1 and q = 11 (a grazing take-off angle), a layer of 1 g/cm2 on one
of 3 g/cm2: the value is below the double integral by more than 1. -/
theorem C137_cross_layer_violated : ∃ v, deBoerX 1 11 1 3 1 1 0 = .ok v ∧
    v + 1 < ∫ x in (0 : ℝ)..1, ∫ y in (0 : ℝ)..3,
      Real.exp (11 * x - 1 * y) * ∫ t in Set.Ioi (1 * x + 0 + 1 * y), Real.exp (-t) / t := by
  have hI := crossIntegral_eq (p := 1) (q := 11) (d1 := 1) (d2 := 3) (m1 := 1) (m2 := 1) (b := 0) (by norm_num)
    (by norm_num) one_pos one_pos (by norm_num) (by norm_num) (by norm_num) le_rfl one_pos (by norm_num)
  have corner : ∀ d1 d2 : ℝ, ¬ ((0 : ℝ) = 0 ∧ d1 = 0 ∧ d2 = 0) → 0 ≤ d1 → 0 ≤ d2 →
      ∃ v, deBoerV 1 11 d1 d2 1 1 0 = .ok v ∧
        v - cornerV 1 11 1 1 0 d1 d2 ≤ Real.exp (10 * d1 - 2 * d2) * ((1 + 3e-9) / 132 + 1.2e-6 / (d1 + d2)) ∧
        Real.exp (10 * d1 - 2 * d2) * (Real.exp (-(10 * (d1 + d2))) * ((10 * (d1 + d2)) ^ 11 / 439084800 - 3e-9) / 132
          - 1.2e-6 / (d1 + d2)) ≤ v - cornerV 1 11 1 1 0 d1 d2 := by
    intro d1 d2 hz p1 p2
    have hh : 0 < d1 + d2 := by
      have := corner_pos one_pos one_pos (le_refl (0 : ℝ)) p1 p2 hz
      linarith
    have a1 : (1 + 1 / 1 : ℝ) * (1 * d1 + 0 + 1 * d2) = 2 * (d1 + d2) := by ring
    have a2 : (1 - 11 / 1 : ℝ) * (1 * d1 + 0 + 1 * d2) = -(10 * (d1 + d2)) := by ring
    have a3 : (1 * d1 + 0 + 1 * d2 : ℝ) = d1 + d2 := by ring
    obtain ⟨D1, hD1, c1⟩ := deBoerD_pv (x := 2 * (d1 + d2)) (by positivity)
    obtain ⟨D2, hD2, l2, u2⟩ := deBoerD_neg (y := 10 * (d1 + d2)) (by positivity)
    obtain ⟨D3, hD3, c3⟩ := deBoerD_pv hh.ne'
    refine ⟨formulaV 1 11 d1 d2 1 1 0 D1 D2 D3, ?_, ?_⟩
    · unfold deBoerV fdiv
      rw [if_neg hz]
      simp only [finiteOr, Outcome.ok_bind, one_ne_zero, if_false, a3, hD3, Option.bind_some]
      norm_num [formulaV]
      simp only [hD1, hD2, Outcome.ok_bind, Option.map_some]
    · have f1 : errD (2 * (d1 + d2)) = 1.2e-6 / (2 * (d1 + d2)) := if_pos (by positivity)
      have f3 : errD (d1 + d2) = 1.2e-6 / (d1 + d2) := if_pos hh
      rw [f1] at c1
      rw [f3, pvE1_pos hh] at c3
      unfold cornerV
      rw [if_neg hz, ← formulaV_exact one_pos one_pos, a1, a2, a3]
      unfold formulaV
      have e0 : ((11 : ℝ) - 1) * d1 - (1 + 1) * d2 - 0 = 10 * d1 - 2 * d2 := by ring
      rw [e0]
      have hE := Real.exp_pos (10 * d1 - 2 * d2)
      generalize Real.exp (10 * d1 - 2 * d2) = E at *
      generalize Real.exp (2 * (d1 + d2)) * pvE1 (2 * (d1 + d2)) = T1 at *
      generalize Real.exp (-(10 * (d1 + d2))) * pvE1 (-(10 * (d1 + d2))) = T2 at *
      generalize Real.exp (d1 + d2) * trueE1 (d1 + d2) = T3 at *
      have g1 : (1.2e-6 : ℝ) / (2 * (d1 + d2)) = 1.2e-6 / (d1 + d2) / 2 := by field_simp
      rw [g1] at c1
      have hk : (0 : ℝ) < 1.2e-6 / (d1 + d2) := by positivity
      generalize (1.2e-6 : ℝ) / (d1 + d2) = k at *
      rw [← mul_sub]
      rw [abs_le] at c1 c3
      norm_num at u2 l2 ⊢
      constructor
      · apply mul_le_mul_of_nonneg_left _ hE.le
        linarith [c1.1, c1.2, c3.1, c3.2]
      · apply mul_le_mul_of_nonneg_left _ hE.le
        linarith [c1.1, c1.2, c3.1, c3.2]
  obtain ⟨va, ha, ba, -⟩ := corner 1 3 (by norm_num) (by norm_num) (by norm_num)
  obtain ⟨vb, hb, -, bb⟩ := corner 1 0 (by norm_num) (by norm_num) (by norm_num)
  obtain ⟨vc, hc, -, bc⟩ := corner 0 3 (by norm_num) (by norm_num) (by norm_num)
  have he : deBoerV 1 11 0 0 1 1 0 = .ok (cornerV 1 11 1 1 0 0 0) := by
    obtain ⟨v, hv, hb⟩ := deBoerV_accuracy (p := 1) (q := 11) (x := 0) (y := 0) (m1 := 1) (m2 := 1) (b := 0)
      (by norm_num) (by norm_num) one_pos one_pos (by norm_num) (by norm_num) (by norm_num) le_rfl le_rfl le_rfl
    rw [hv]
    unfold cornerError at hb
    rw [if_pos ⟨rfl, rfl, rfl⟩] at hb
    have := abs_eq_zero.1 (le_antisymm hb (abs_nonneg _))
    congr 1
    linarith
  refine ⟨va - vb - vc + cornerV 1 11 1 1 0 0 0, by unfold deBoerX; rw [ha, hb, hc, he]; rfl, ?_⟩
  change _ < crossIntegral 1 11 1 3 1 1 0
  rw [hI]
  have x1 := Real.exp_one_lt_d9
  have x0 := Real.exp_one_gt_d9
  have e4 : Real.exp 4 ≤ 55 := by
    have e : Real.exp 4 = Real.exp 1 ^ 4 := by rw [← Real.exp_nat_mul]; norm_num
    rw [e]
    refine le_trans (pow_le_pow_left₀ (Real.exp_pos 1).le x1.le 4) (by norm_num)
  have e10 : Real.exp 10 ≤ 22100 := by
    have e : Real.exp 10 = Real.exp 1 ^ 10 := by rw [← Real.exp_nat_mul]; norm_num
    rw [e]
    refine le_trans (pow_le_pow_left₀ (Real.exp_pos 1).le x1.le 10) (by norm_num)
  have e10' : Real.exp 10 * Real.exp (-10) = 1 := by rw [← Real.exp_add]; simp
  have em : Real.exp (-6) ≤ 1 := Real.exp_le_one_iff.2 (by norm_num)
  have em0 := Real.exp_pos (-6)
  have em30 := Real.exp_pos (-30)
  have pos36 := mul_pos em0 em30
  norm_num at ba bb bc ⊢
  have bb' : (227 : ℝ) / 132 - 1 / 30 ≤ vb - cornerV 1 11 1 1 0 1 0 := by
    refine le_trans ?_ bb
    have e : ∀ K k : ℝ, Real.exp 10 * (Real.exp (-10) * K / 132 - k) = (Real.exp 10 * Real.exp (-10)) * K / 132
      - Real.exp 10 * k := by intro K k; ring
    rw [e, e10']
    norm_num
    linarith
  nlinarith

end MathFn
end Fisx
