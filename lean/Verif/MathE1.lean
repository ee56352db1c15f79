import Verif.MathFnProps

/-!
# Accuracy of `Math::E1` and `Math::deBoerD` (C131)

The continued fraction of fisx_math.cpp:504-556 is the J-fraction of exp(x) E1(x). The remainders of its convergents
are positive integrals with the same three-term recurrence.
-/

set_option linter.unusedSectionVars false

namespace Fisx
namespace MathFn

open MeasureTheory Set Filter Topology

/-! ### Numerators and denominators -/

/-- Proof device: numerators of the convergents of the continued fraction of fisx_math.cpp:529-548. -/
noncomputable def cfA (x : ℝ) : Nat → ℝ
  | 0 => 1
  | 1 => 1 + x
  | n + 2 => (x + 2 * ((n : ℝ) + 1) + 1) * cfA x (n + 1) - ((n : ℝ) + 1) ^ 2 * cfA x n

/-- Proof device: denominators of the convergents. -/
noncomputable def cfB (x : ℝ) : Nat → ℝ
  | 0 => 0
  | 1 => 1
  | n + 2 => (x + 2 * ((n : ℝ) + 1) + 1) * cfB x (n + 1) - ((n : ℝ) + 1) ^ 2 * cfB x n

theorem lentz_cf {x : ℝ} (hx : 0 < x) (n : Nat) :
    Lentz x (n + 1) (lentzState x n).1 (lentzState x n).2.1 (lentzState x n).2.2.1 (lentzState x n).2.2.2
      (cfA x (n + 1)) (cfA x n) (cfB x (n + 1)) (cfB x n) := by
  induction n with
  | zero => exact lentz_init x hx
  | succ n ih =>
    have h := lentz_step hx (by omega) ih
    have e : (lentzState x n).1 + 2 = x + 2 * ((n : ℝ) + 1) + 1 := by
      rw [ih.hb]; push_cast; ring
    have eA : ((lentzState x n).1 + 2) * cfA x (n + 1) - ((n + 1 : Nat) : ℝ) * ((n + 1 : Nat) : ℝ) * cfA x n
        = cfA x (n + 2) := by rw [e, cfA]; push_cast; ring
    have eB : ((lentzState x n).1 + 2) * cfB x (n + 1) - ((n + 1 : Nat) : ℝ) * ((n + 1 : Nat) : ℝ) * cfB x n
        = cfB x (n + 2) := by rw [e, cfB]; push_cast; ring
    simp only [eA, eB] at h
    exact h

theorem cfA_pos {x : ℝ} (hx : 0 < x) (n : Nat) : 0 < cfA x n := (lentz_cf hx n).A'pos
theorem cfB_pos {x : ℝ} (hx : 0 < x) (n : Nat) : 0 < cfB x (n + 1) := (lentz_cf hx n).Bpos
theorem cfB_nonneg {x : ℝ} (hx : 0 < x) (n : Nat) : 0 ≤ cfB x n := (lentz_cf hx n).B'nonneg

/-- Determinant of two successive convergents. -/
theorem cf_det (x : ℝ) (n : Nat) :
    cfA x n * cfB x (n + 1) - cfA x (n + 1) * cfB x n = ((n.factorial : ℝ)) ^ 2 := by
  induction n with
  | zero => simp [cfA, cfB]
  | succ n ih =>
    rw [cfA, cfB, Nat.factorial_succ]
    push_cast
    linear_combination ((n : ℝ) + 1) ^ 2 * ih

/-- Growth of the numerators. -/
theorem cfA_growth {x s : ℝ} (hx : 0 < x) (hs : 0 ≤ s) {n : Nat}
    (h : ((n : ℝ) + 1 + s) * cfA x n ≤ cfA x (n + 1)) :
    ((n : ℝ) + 2 + x + ((n : ℝ) + 1) * s / ((n : ℝ) + 1 + s)) * cfA x (n + 1) ≤ cfA x (n + 2) := by
  have hA := cfA_pos hx n
  have hp : 0 < (n : ℝ) + 1 + s := by positivity
  have h1 : cfA x n ≤ cfA x (n + 1) / ((n : ℝ) + 1 + s) := by rw [le_div_iff₀ hp]; linarith
  have h2 := mul_le_mul_of_nonneg_left h1 (show 0 ≤ ((n : ℝ) + 1) ^ 2 by positivity)
  rw [cfA]
  have e : ((n : ℝ) + 1) ^ 2 * (cfA x (n + 1) / ((n : ℝ) + 1 + s))
      = ((n : ℝ) + 1 - ((n : ℝ) + 1) * s / ((n : ℝ) + 1 + s)) * cfA x (n + 1) := by
    field_simp
    ring
  rw [e] at h2
  linarith

theorem cfA_growth0 {x : ℝ} (hx : 0 < x) (n : Nat) : ((n : ℝ) + 1 + x) * cfA x n ≤ cfA x (n + 1) := by
  induction n with
  | zero => simp [cfA]
  | succ n ih =>
    refine le_trans ?_ (cfA_growth hx hx.le ih)
    apply mul_le_mul_of_nonneg_right _ (cfA_pos hx _).le
    have : 0 ≤ ((n : ℝ) + 1) * x / ((n : ℝ) + 1 + x) := by positivity
    push_cast
    linarith

/-! ### The remainders -/

/-- The integral of exp(-t) t^n / (x+t)^(n+1) over the positive numbers. -/
noncomputable def cfJ (x : ℝ) (n : Nat) : ℝ := ∫ t in Ioi (0 : ℝ), Real.exp (-t) * (t / (x + t)) ^ n / (x + t)

theorem cfJ_integrable {x : ℝ} (hx : 0 < x) (n : Nat) :
    IntegrableOn (fun t => Real.exp (-t) * (t / (x + t)) ^ n / (x + t)) (Ioi (0 : ℝ)) := by
  have h1 : IntegrableOn (fun t : ℝ => Real.exp (-t) / x) (Ioi 0) := (integrableOn_exp_neg_Ioi 0).div_const x
  refine Integrable.mono' h1 ?_ ?_
  · apply Measurable.aestronglyMeasurable
    fun_prop
  · filter_upwards [ae_restrict_mem measurableSet_Ioi] with t ht
    have ht0 : 0 < t := ht
    rw [Real.norm_of_nonneg (by positivity)]
    have hu : (t / (x + t)) ^ n ≤ 1 := pow_le_one₀ (by positivity) (by rw [div_le_one (by positivity)]; linarith)
    apply div_le_div₀ (Real.exp_pos _).le _ hx (by linarith)
    calc Real.exp (-t) * (t / (x + t)) ^ n ≤ Real.exp (-t) * 1 :=
          mul_le_mul_of_nonneg_left hu (Real.exp_pos _).le
      _ = _ := mul_one _

theorem cfJ_nonneg {x : ℝ} (hx : 0 < x) (n : Nat) : 0 ≤ cfJ x n := by
  apply setIntegral_nonneg measurableSet_Ioi
  intro t ht
  have ht0 : 0 < t := ht
  positivity

theorem cfJ_antitone {x : ℝ} (hx : 0 < x) (n : Nat) : cfJ x (n + 1) ≤ cfJ x n := by
  apply setIntegral_mono_on (cfJ_integrable hx _) (cfJ_integrable hx _) measurableSet_Ioi
  intro t ht
  have ht0 : 0 < t := ht
  have hu1 : t / (x + t) ≤ 1 := by rw [div_le_one (by positivity)]; linarith
  have hu : (t / (x + t)) ^ (n + 1) ≤ (t / (x + t)) ^ n := pow_le_pow_of_le_one (by positivity) hu1 (by omega)
  apply div_le_div_of_nonneg_right _ (by positivity)
  exact mul_le_mul_of_nonneg_left hu (Real.exp_pos _).le

/-- Integration by parts. -/
theorem cfJ_hasDeriv {x : ℝ} (hx : 0 < x) (n : Nat) {t : ℝ} (ht : 0 ≤ t) :
    HasDerivAt (fun t => Real.exp (-t) * (t / (x + t)) ^ n * (x / (x + t)))
      (-Real.exp (-t) * (t / (x + t)) ^ n * (x / (x + t)) + Real.exp (-t) *
        ((n : ℝ) * (t / (x + t)) ^ (n - 1) * (x / (x + t) ^ 2)) * (x / (x + t))
        + Real.exp (-t) * (t / (x + t)) ^ n * (- x / (x + t) ^ 2)) t := by
  have hp : x + t ≠ 0 := by positivity
  have h1 : HasDerivAt (fun t : ℝ => Real.exp (-t)) (-Real.exp (-t)) t := by
    simpa using (hasDerivAt_neg t).exp
  have h2 : HasDerivAt (fun t : ℝ => x + t) 1 t := (hasDerivAt_id t).const_add x
  have h3 : HasDerivAt (fun t : ℝ => t / (x + t)) (x / (x + t) ^ 2) t := by
    refine ((hasDerivAt_id t).div h2 hp).congr_deriv ?_
    simp only [id]
    ring
  have h4 : HasDerivAt (fun t : ℝ => x / (x + t)) (- x / (x + t) ^ 2) t := by
    refine ((hasDerivAt_const t x).div h2 hp).congr_deriv ?_
    ring
  refine ((h1.mul (h3.pow n)).mul h4).congr_deriv ?_
  simp only [Pi.mul_apply, Pi.pow_apply]
  ring

theorem cfJ_tendsto {x : ℝ} (hx : 0 < x) (n : Nat) :
    Tendsto (fun t => Real.exp (-t) * (t / (x + t)) ^ n * (x / (x + t))) atTop (𝓝 0) := by
  have h1 : Tendsto (fun t : ℝ => Real.exp (-t)) atTop (𝓝 0) := Real.tendsto_exp_neg_atTop_nhds_zero
  refine squeeze_zero' ?_ ?_ h1
  · filter_upwards [eventually_gt_atTop (0 : ℝ)] with t ht
    positivity
  · filter_upwards [eventually_gt_atTop (0 : ℝ)] with t ht
    have hu : (t / (x + t)) ^ n ≤ 1 := pow_le_one₀ (by positivity) (by rw [div_le_one (by positivity)]; linarith)
    have hv : x / (x + t) ≤ 1 := by rw [div_le_one (by positivity)]; linarith
    have h3 : (t / (x + t)) ^ n * (x / (x + t)) ≤ 1 := mul_le_one₀ hu (by positivity) hv
    calc _ = Real.exp (-t) * ((t / (x + t)) ^ n * (x / (x + t))) := by ring
      _ ≤ Real.exp (-t) * 1 := mul_le_mul_of_nonneg_left h3 (Real.exp_pos _).le
      _ = _ := mul_one _

theorem cfJ_zero {x : ℝ} (hx : 0 < x) : cfJ x 1 = (1 + x) * cfJ x 0 - 1 := by
  have hI0 := cfJ_integrable hx 0
  have hI1 := cfJ_integrable hx 1
  have hint : IntegrableOn (fun t => Real.exp (-t) * (t / (x + t)) ^ 1 / (x + t)
      - (x + 1) * (Real.exp (-t) * (t / (x + t)) ^ 0 / (x + t))) (Ioi (0 : ℝ)) := hI1.sub (hI0.const_mul (x + 1))
  have hd : ∀ t ∈ Ici (0 : ℝ), HasDerivAt (fun t => Real.exp (-t) * (t / (x + t)) ^ 0 * (x / (x + t)))
      (Real.exp (-t) * (t / (x + t)) ^ 1 / (x + t) - (x + 1) * (Real.exp (-t) * (t / (x + t)) ^ 0 / (x + t))) t := by
    intro t ht
    have ht0 : 0 ≤ t := ht
    refine (cfJ_hasDeriv hx 0 ht0).congr_deriv ?_
    have hp : x + t ≠ 0 := by positivity
    field_simp
    push_cast
    ring
  have h := integral_Ioi_of_hasDerivAt_of_tendsto' hd hint (cfJ_tendsto hx 0)
  rw [integral_sub hI1 (hI0.const_mul (x + 1)), integral_const_mul] at h
  have e : Real.exp (-0) * ((0 : ℝ) / (x + 0)) ^ 0 * (x / (x + 0)) = 1 := by
    simp [hx.ne']
  rw [e] at h
  unfold cfJ
  linarith

theorem cfJ_succ {x : ℝ} (hx : 0 < x) (n : Nat) :
    ((n : ℝ) + 2) * cfJ x (n + 2) = (x + 2 * ((n : ℝ) + 1) + 1) * cfJ x (n + 1) - ((n : ℝ) + 1) * cfJ x n := by
  have hI0 := (cfJ_integrable hx n).const_mul ((n : ℝ) + 1)
  have hI1 := (cfJ_integrable hx (n + 1)).const_mul (x + 2 * ((n : ℝ) + 1) + 1)
  have hI2 := (cfJ_integrable hx (n + 2)).const_mul ((n : ℝ) + 2)
  have hint := (hI2.sub hI1).add hI0
  have hd : ∀ t ∈ Ici (0 : ℝ), HasDerivAt (fun t => Real.exp (-t) * (t / (x + t)) ^ (n + 1) * (x / (x + t)))
      (((n : ℝ) + 2) * (Real.exp (-t) * (t / (x + t)) ^ (n + 2) / (x + t))
        - (x + 2 * ((n : ℝ) + 1) + 1) * (Real.exp (-t) * (t / (x + t)) ^ (n + 1) / (x + t))
        + ((n : ℝ) + 1) * (Real.exp (-t) * (t / (x + t)) ^ n / (x + t))) t := by
    intro t ht
    have ht0 : 0 ≤ t := ht
    refine (cfJ_hasDeriv hx (n + 1) ht0).congr_deriv ?_
    have hp : x + t ≠ 0 := by positivity
    rw [Nat.add_sub_cancel]
    have e1 : (t / (x + t)) ^ (n + 1) = (t / (x + t)) ^ n * (t / (x + t)) := pow_succ _ _
    have e2 : (t / (x + t)) ^ (n + 2) = (t / (x + t)) ^ n * (t / (x + t)) ^ 2 := pow_add _ _ _
    rw [e1, e2]
    generalize (t / (x + t)) ^ n = w
    push_cast
    field_simp
    ring
  have h := integral_Ioi_of_hasDerivAt_of_tendsto' hd hint (cfJ_tendsto hx (n + 1))
  have e : Real.exp (-0) * ((0 : ℝ) / (x + 0)) ^ (n + 1) * (x / (x + 0)) = 0 := by simp
  rw [e] at h
  have h2 := integral_add (hI2.sub hI1) hI0
  have h3 := integral_sub hI2 hI1
  simp only [Pi.sub_apply] at h2 h3
  rw [h2, h3, integral_const_mul, integral_const_mul, integral_const_mul] at h
  unfold cfJ
  linarith

/-- The remainder of the continued fraction. -/
theorem cf_remainder {x : ℝ} (hx : 0 < x) (n : Nat) :
    (n.factorial : ℝ) * cfJ x n = cfA x n * cfJ x 0 - cfB x n ∧
    ((n + 1).factorial : ℝ) * cfJ x (n + 1) = cfA x (n + 1) * cfJ x 0 - cfB x (n + 1) := by
  induction n with
  | zero =>
    constructor
    · simp [cfA, cfB]
    · simp [cfA, cfB, cfJ_zero hx]
  | succ n ih =>
    refine ⟨ih.2, ?_⟩
    have h := cfJ_succ hx n
    have i1 := ih.1
    have i2 := ih.2
    rw [cfA, cfB, Nat.factorial_succ, Nat.factorial_succ]
    rw [Nat.factorial_succ] at i2
    push_cast at i2 ⊢
    linear_combination ((n : ℝ) + 1) * (n.factorial : ℝ) * h - ((n : ℝ) + 1) ^ 2 * i1
      + (x + 2 * ((n : ℝ) + 1) + 1) * i2

/-- exp(x) E1(x) is the first of the integrals. -/
theorem cfJ_eq (x : ℝ) : cfJ x 0 = Real.exp x * trueE1 x := by
  unfold cfJ trueE1
  rw [← integral_const_mul]
  have h := (measurePreserving_add_right volume x).setIntegral_preimage_emb (measurableEmbedding_addRight x)
    (fun t => Real.exp x * (Real.exp (-t) / t)) (Ioi x)
  rw [Set.preimage_add_const_Ioi, sub_self] at h
  rw [← h]
  apply setIntegral_congr_fun measurableSet_Ioi
  intro t ht
  have ht0 : 0 < t := ht
  simp only [pow_zero, mul_one]
  rw [neg_add, Real.exp_add, add_comm t x]
  have : Real.exp x * Real.exp (-x) = 1 := by rw [← Real.exp_add]; simp
  rw [mul_div_assoc', mul_comm (Real.exp (-t)), ← mul_assoc, this, one_mul]

/-! ### The loop -/

/-- `1 - delta` at iteration `j`. -/
noncomputable def cfDelta (x : ℝ) (j : Nat) : ℝ := ((j.factorial : ℝ)) ^ 2 / (cfA x j * cfB x (j + 1))

theorem state_delta {x : ℝ} (hx : 0 < x) (n : Nat) :
    |(lentzState x (n + 1)).2.2.1 * (lentzState x (n + 1)).2.2.2 - 1| = cfDelta x (n + 1) := by
  have h := lentz_cf hx (n + 1)
  have hA := cfA_pos hx (n + 1)
  have hB := cfB_pos hx (n + 1)
  rw [h.hC, h.hD]
  have hdet := cf_det x (n + 1)
  have e : cfA x (n + 1 + 1) / cfA x (n + 1) * (cfB x (n + 1) / cfB x (n + 1 + 1)) - 1 = - cfDelta x (n + 1) := by
    unfold cfDelta
    rw [← hdet]
    field_simp
    ring
  rw [e, abs_neg, abs_of_nonneg]
  unfold cfDelta
  positivity

theorem loop_result {x : ℝ} (hx : 0 < x) (eps : ℝ) (m : Nat) : ∀ n : Nat,
    let s := lentzState x n
    let r := lentzLoop x eps (n + 1) m s.1 s.2.1 s.2.2.1 s.2.2.2
    (r = lentzFallback x ∧ ∀ k, k < m → eps ≤ cfDelta x (n + k + 1)) ∨
    (∃ k, k < m ∧ r = cfB x (n + k + 2) / cfA x (n + k + 2) ∧ cfDelta x (n + k + 1) < eps ∧
      ∀ k', k' < k → eps ≤ cfDelta x (n + k' + 1)) := by
  induction m with
  | zero => intro n; exact Or.inl ⟨rfl, by omega⟩
  | succ m ih =>
    intro n s r
    have hr : r = if |(lentzState x (n + 1)).2.2.1 * (lentzState x (n + 1)).2.2.2 - 1| < eps then
        1 / (lentzState x (n + 1)).2.1 else lentzLoop x eps (n + 2) m (lentzState x (n + 1)).1
          (lentzState x (n + 1)).2.1 (lentzState x (n + 1)).2.2.1 (lentzState x (n + 1)).2.2.2 :=
      lentzLoop_state x eps n m
    rw [state_delta hx] at hr
    by_cases hd : cfDelta x (n + 1) < eps
    · rw [if_pos hd] at hr
      refine Or.inr ⟨0, by omega, ?_, hd, by omega⟩
      rw [hr, (lentz_cf hx (n + 1)).hf, one_div, inv_div]
    · rw [if_neg hd] at hr
      have h := ih (n + 1)
      simp only at h
      rw [show n + 1 + 1 = n + 2 from rfl, ← hr] at h
      rcases h with ⟨h1, h2⟩ | ⟨k, hk, h1, h2, h3⟩
      · refine Or.inl ⟨h1, ?_⟩
        intro k hk
        rcases Nat.eq_zero_or_pos k with rfl | hk0
        · exact not_lt.1 hd
        · have := h2 (k - 1) (by omega)
          rw [show n + 1 + (k - 1) + 1 = n + k + 1 by omega] at this
          exact this
      · refine Or.inr ⟨k + 1, by omega, ?_, ?_, ?_⟩
        · rw [h1, show n + 1 + k + 2 = n + (k + 1) + 2 by omega]
        · rw [show n + (k + 1) + 1 = n + 1 + k + 1 by omega]; exact h2
        · intro k' hk'
          rcases Nat.eq_zero_or_pos k' with rfl | hk0
          · exact not_lt.1 hd
          · have := h3 (k' - 1) (by omega)
            rw [show n + 1 + (k' - 1) + 1 = n + k' + 1 by omega] at this
            exact this

/-- The error of the convergent `j + 1`, relative to it, in terms of `1 - delta`. -/
theorem convergent_error {x s : ℝ} (hx : 0 < x) (hs : 0 < s) (j : Nat)
    (hg : ((j : ℝ) + 1 + s) * cfA x j ≤ cfA x (j + 1)) :
    0 ≤ cfJ x 0 - cfB x (j + 1) / cfA x (j + 1) ∧
    cfJ x 0 - cfB x (j + 1) / cfA x (j + 1) ≤ ((j : ℝ) + 1) / s * cfDelta x j * (cfB x (j + 1) / cfA x (j + 1)) := by
  obtain ⟨h0, h1⟩ := cf_remainder hx j
  have hA := cfA_pos hx j
  have hA1 := cfA_pos hx (j + 1)
  have hB1 := cfB_pos hx j
  have hdet := cf_det x j
  have hJ0 := cfJ_nonneg hx j
  have hJ1 := cfJ_nonneg hx (j + 1)
  have hanti := cfJ_antitone hx j
  have hf : (0 : ℝ) < (j.factorial : ℝ) := by exact_mod_cast j.factorial_pos
  have e : cfJ x 0 - cfB x (j + 1) / cfA x (j + 1) = ((j + 1).factorial : ℝ) * cfJ x (j + 1) / cfA x (j + 1) := by
    rw [h1]
    field_simp
  have hR1 : 0 ≤ ((j + 1).factorial : ℝ) * cfJ x (j + 1) := by positivity
  refine ⟨by rw [e]; positivity, ?_⟩
  rw [e]
  have hRR : ((j + 1).factorial : ℝ) * cfJ x (j + 1) ≤ ((j : ℝ) + 1) * ((j.factorial : ℝ) * cfJ x j) := by
    rw [Nat.factorial_succ]
    push_cast
    calc ((j : ℝ) + 1) * (j.factorial : ℝ) * cfJ x (j + 1) ≤ ((j : ℝ) + 1) * (j.factorial : ℝ) * cfJ x j :=
          mul_le_mul_of_nonneg_left hanti (by positivity)
      _ = _ := by ring
  generalize ((j + 1).factorial : ℝ) * cfJ x (j + 1) = R1 at *
  have hcas : cfA x (j + 1) * ((j.factorial : ℝ) * cfJ x j) - cfA x j * R1 = (j.factorial : ℝ) ^ 2 := by
    rw [h0, h1, ← hdet]; ring
  have hR0 : 0 ≤ (j.factorial : ℝ) * cfJ x j := by positivity
  generalize (j.factorial : ℝ) * cfJ x j = R0 at *
  have hj : (0 : ℝ) < (j : ℝ) + 1 := by positivity
  -- s A R1 ≤ (j+1) (j!)^2
  have hmain : s * (cfA x j * R1) ≤ ((j : ℝ) + 1) * (j.factorial : ℝ) ^ 2 := by
    have a1 := mul_le_mul_of_nonneg_right hg hR0
    have a2 := mul_le_mul_of_nonneg_left hRR (show 0 ≤ s * cfA x j by positivity)
    have a3 := mul_le_mul_of_nonneg_left hRR (show 0 ≤ ((j : ℝ) + 1) * cfA x j by positivity)
    nlinarith
  unfold cfDelta
  have e2 : ((j : ℝ) + 1) / s * ((j.factorial : ℝ) ^ 2 / (cfA x j * cfB x (j + 1))) * (cfB x (j + 1) / cfA x (j + 1))
      = ((j : ℝ) + 1) * (j.factorial : ℝ) ^ 2 / (s * cfA x j) / cfA x (j + 1) := by
    field_simp
  rw [e2]
  apply div_le_div_of_nonneg_right _ hA1.le
  rw [le_div_iff₀ (by positivity)]
  linarith

/-! ### Comparison with the argument 1 -/

theorem cfA_ratio_mono {x : ℝ} (hx : 1 ≤ x) (n : Nat) : cfA 1 (n + 1) * cfA x n ≤ cfA x (n + 1) * cfA 1 n := by
  have hx0 : 0 < x := by linarith
  induction n with
  | zero => simp only [cfA]; linarith
  | succ n ih =>
    have h1 := cfA_pos hx0 (n + 1)
    have h2 := cfA_pos one_pos (n + 1)
    have h3 := mul_nonneg (mul_nonneg (sub_nonneg.2 hx) h1.le) h2.le
    have h4 := mul_le_mul_of_nonneg_left ih (show 0 ≤ ((n : ℝ) + 1) ^ 2 by positivity)
    simp only [cfA]
    linarith

theorem cfA_mono {x : ℝ} (hx : 1 ≤ x) (n : Nat) : cfA 1 n ≤ cfA x n := by
  have hx0 : 0 < x := by linarith
  induction n with
  | zero => simp [cfA]
  | succ n ih =>
    have h := cfA_ratio_mono hx n
    have h1 := cfA_pos one_pos n
    have h2 := cfA_pos one_pos (n + 1)
    have h3 : cfA 1 (n + 1) * cfA 1 n ≤ cfA x (n + 1) * cfA 1 n :=
      le_trans (mul_le_mul_of_nonneg_left ih h2.le) h
    exact le_of_mul_le_mul_right h3 h1

theorem cfB_ratio_mono {x : ℝ} (hx : 1 ≤ x) (n : Nat) : cfB 1 (n + 1) * cfB x n ≤ cfB x (n + 1) * cfB 1 n := by
  have hx0 : 0 < x := by linarith
  induction n with
  | zero => simp [cfB]
  | succ n ih =>
    have h1 := cfB_pos hx0 n
    have h2 := cfB_pos one_pos n
    have h3 := mul_nonneg (mul_nonneg (sub_nonneg.2 hx) h1.le) h2.le
    have h4 := mul_le_mul_of_nonneg_left ih (show 0 ≤ ((n : ℝ) + 1) ^ 2 by positivity)
    simp only [cfB]
    linarith

theorem cfB_mono {x : ℝ} (hx : 1 ≤ x) (n : Nat) : cfB 1 n ≤ cfB x n := by
  have hx0 : 0 < x := by linarith
  rcases n with _ | n
  · simp [cfB]
  induction n with
  | zero => simp [cfB]
  | succ n ih =>
    have h := cfB_ratio_mono hx (n + 1)
    have h1 := cfB_pos one_pos n
    have h2 := cfB_pos one_pos (n + 1)
    have h3 : cfB 1 (n + 1 + 1) * cfB 1 (n + 1) ≤ cfB x (n + 1 + 1) * cfB 1 (n + 1) :=
      le_trans (mul_le_mul_of_nonneg_left ih h2.le) h
    exact le_of_mul_le_mul_right h3 h1

/-- The recurrence at the argument 1, with integers. -/
def cfZ (a b : Int) : Nat → Int × Int
  | 0 => (a, b)
  | n + 1 =>
    let p := cfZ a b n
    (p.2, (2 * (n : Int) + 4) * p.2 - ((n : Int) + 1) ^ 2 * p.1)

theorem cfA_one (n : Nat) : cfA 1 n = ((cfZ 1 2 n).1 : ℝ) ∧ cfA 1 (n + 1) = ((cfZ 1 2 n).2 : ℝ) := by
  induction n with
  | zero => norm_num [cfA, cfZ]
  | succ n ih =>
    refine ⟨ih.2, ?_⟩
    rw [cfA, cfZ, ih.1, ih.2]
    push_cast
    ring

theorem cfB_one (n : Nat) : cfB 1 n = ((cfZ 0 1 n).1 : ℝ) ∧ cfB 1 (n + 1) = ((cfZ 0 1 n).2 : ℝ) := by
  induction n with
  | zero => norm_num [cfB, cfZ]
  | succ n ih =>
    refine ⟨ih.2, ?_⟩
    rw [cfB, cfZ, ih.1, ih.2]
    push_cast
    ring

theorem cfDelta_21 {x : ℝ} (hx : 1 ≤ x) : cfDelta x 21 < 1.0e-7 := by
  have hx0 : 0 < x := by linarith
  have hA := cfA_pos one_pos 21
  have hB := cfB_pos one_pos 21
  have h1 : cfDelta x 21 ≤ cfDelta 1 21 := by
    unfold cfDelta
    apply div_le_div_of_nonneg_left (by positivity) (by positivity)
    exact mul_le_mul (cfA_mono hx 21) (cfB_mono hx 22) hB.le (cfA_pos hx0 21).le
  refine lt_of_le_of_lt h1 ?_
  unfold cfDelta
  rw [div_lt_iff₀ (by positivity), (cfA_one 21).1, (cfB_one 21).2]
  have : ((Nat.factorial 21 : Int)) ^ 2 * 10 ^ 7 < (cfZ 1 2 21).1 * (cfZ 0 1 21).2 := by decide +kernel
  have h : (((Nat.factorial 21 : Int)) ^ 2 * 10 ^ 7 : ℝ) < ((cfZ 1 2 21).1 : ℝ) * ((cfZ 0 1 21).2 : ℝ) := by
    exact_mod_cast this
  norm_num at h ⊢
  linarith

theorem cfA_growth_steps {x : ℝ} (hx : 1 ≤ x) (n : Nat) :
    (9 ≤ n → ((n : ℝ) + 1 + 1.9) * cfA x n ≤ cfA x (n + 1)) ∧
    (10 ≤ n → ((n : ℝ) + 1 + 2.5) * cfA x n ≤ cfA x (n + 1)) := by
  have hx0 : 0 < x := by linarith
  have first : ∀ n : Nat, 9 ≤ n → ((n : ℝ) + 1 + 1.9) * cfA x n ≤ cfA x (n + 1) := by
    intro n hn
    obtain ⟨m, rfl⟩ : ∃ m, n = m + 1 := ⟨n - 1, by omega⟩
    have hm : (8 : ℝ) ≤ m := by exact_mod_cast (show 8 ≤ m by omega)
    have hg : ((m : ℝ) + 1 + 1) * cfA x m ≤ cfA x (m + 1) :=
      le_trans (mul_le_mul_of_nonneg_right (by linarith) (cfA_pos hx0 m).le) (cfA_growth0 hx0 m)
    refine le_trans ?_ (cfA_growth hx0 zero_le_one hg)
    apply mul_le_mul_of_nonneg_right _ (cfA_pos hx0 _).le
    have : (0.9 : ℝ) ≤ ((m : ℝ) + 1) * 1 / ((m : ℝ) + 1 + 1) := by
      rw [le_div_iff₀ (by positivity)]; linarith
    push_cast
    linarith
  refine ⟨first n, ?_⟩
  intro hn
  obtain ⟨m, rfl⟩ : ∃ m, n = m + 1 := ⟨n - 1, by omega⟩
  have hm : (9 : ℝ) ≤ m := by exact_mod_cast (show 9 ≤ m by omega)
  refine le_trans ?_ (cfA_growth hx0 (by norm_num) (first m (by omega)))
  apply mul_le_mul_of_nonneg_right _ (cfA_pos hx0 _).le
  have : (1.5 : ℝ) ≤ ((m : ℝ) + 1) * 1.9 / ((m : ℝ) + 1 + 1.9) := by
    rw [le_div_iff₀ (by positivity)]; linarith
  push_cast
  linarith

/-- The factor between `1 - delta` and the relative error, for the iterations up to 21. -/
theorem growth_21 {x : ℝ} (hx : 1 ≤ x) {j : Nat} (hj : j ≤ 21) :
    ∃ s : ℝ, 0 < s ∧ ((j : ℝ) + 1 + s) * cfA x j ≤ cfA x (j + 1) ∧ ((j : ℝ) + 1) / s ≤ 9 := by
  have hx0 : 0 < x := by linarith
  by_cases h8 : j ≤ 8
  · refine ⟨1, one_pos, ?_, ?_⟩
    · exact le_trans (mul_le_mul_of_nonneg_right (by linarith) (cfA_pos hx0 j).le) (cfA_growth0 hx0 j)
    · have : (j : ℝ) ≤ 8 := by exact_mod_cast h8
      linarith
  · by_cases h9 : j = 9
    · subst h9
      exact ⟨1.9, by norm_num, (cfA_growth_steps hx 9).1 (le_refl _), by norm_num⟩
    · refine ⟨2.5, by norm_num, (cfA_growth_steps hx j).2 (by omega), ?_⟩
      have : (j : ℝ) ≤ 21 := by exact_mod_cast hj
      rw [div_le_iff₀ (by norm_num)]
      linarith

/-! ## C131, arguments above 1 -/

/-- The continued fraction with any tolerance and number of iterations. -/
theorem C131_continued_fraction {x : ℝ} (hx : 1 < x) {eps : ℝ} (maxIter : Nat) :
    ∃ d, deBoerCF x eps maxIter = .ok d ∧ (d = lentzFallback x ∨
      (0 ≤ Real.exp x * trueE1 x - d ∧ Real.exp x * trueE1 x - d ≤ maxIter / x * eps * d)) := by
  have hx0 : 0 < x := by linarith
  refine ⟨_, if_neg (not_le.2 hx), ?_⟩
  have h := loop_result hx0 eps (maxIter - 1) 0
  simp only [lentzState, Nat.zero_add] at h
  rcases h with ⟨h1, _⟩ | ⟨k, hk, h1, h2, _⟩
  · exact Or.inl h1
  · right
    rw [h1, ← cfJ_eq]
    obtain ⟨a, b⟩ := convergent_error hx0 hx0 (k + 1) (cfA_growth0 hx0 (k + 1))
    refine ⟨a, le_trans b ?_⟩
    have hB := cfB_pos hx0 (k + 1)
    have hA := cfA_pos hx0 (k + 2)
    apply mul_le_mul_of_nonneg_right _ (div_pos hB hA).le
    have hm : ((k + 1 : Nat) : ℝ) + 1 ≤ maxIter := by exact_mod_cast (show k + 1 + 1 ≤ maxIter by omega)
    have hd0 : 0 ≤ cfDelta x (k + 1) := by
      have := cfA_pos hx0 (k + 1)
      unfold cfDelta
      positivity
    apply mul_le_mul (div_le_div_of_nonneg_right hm hx0.le) h2.le hd0
    positivity

/-- With the default arguments the loop converges, and the relative error is below one millionth. -/
theorem deBoerCF_accuracy {x : ℝ} (hx : 1 < x) :
    ∃ d, deBoerCF x = .ok d ∧ 0 < d ∧ 0 ≤ Real.exp x * trueE1 x - d ∧ Real.exp x * trueE1 x - d ≤ 9.0e-7 * d := by
  have hx0 : 0 < x := by linarith
  refine ⟨_, if_neg (not_le.2 hx), ?_⟩
  have h := loop_result hx0 1.0e-7 99 0
  simp only [lentzState, Nat.zero_add] at h
  have h21 := cfDelta_21 hx.le
  rcases h with ⟨_, h2⟩ | ⟨k, hk, h1, h2, h3⟩
  · exact absurd (h2 20 (by omega)) (not_le.2 h21)
  · have hk20 : k ≤ 20 := by
      by_contra hc
      exact absurd (h3 20 (by omega)) (not_le.2 h21)
    have hB := cfB_pos hx0 (k + 1)
    have hA := cfA_pos hx0 (k + 2)
    rw [show 100 - 1 = 99 from rfl, h1, ← cfJ_eq]
    obtain ⟨s, hs, hg, hK⟩ := growth_21 hx.le (show k + 1 ≤ 21 by omega)
    obtain ⟨a, b⟩ := convergent_error hx0 hs (k + 1) hg
    refine ⟨div_pos hB hA, a, le_trans b ?_⟩
    apply mul_le_mul_of_nonneg_right _ (div_pos hB hA).le
    have hd0 : 0 ≤ cfDelta x (k + 1) := by
      have := cfA_pos hx0 (k + 1)
      unfold cfDelta
      positivity
    have := mul_le_mul hK h2.le hd0 (by norm_num)
    norm_num at this ⊢
    linarith

end MathFn
end Fisx
