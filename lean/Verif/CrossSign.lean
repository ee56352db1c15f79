import Verif.SecondaryIntegral

/-!
# The enhancement from other layers is not negative (C137, C141)

For negative arguments the exponential integral of the code lacks the terms of its series beyond the tenth, and
`C137_cross_layer_violated` shows that the result can be far from the double integral. Here: however large this error
is, it never makes the result negative. What remains are the errors of the exponential integral at positive arguments.
-/

set_option linter.unusedSectionVars false

namespace Fisx
namespace MathFn

open MeasureTheory Set Filter Topology

/-- The terms neglected in the series of E1 at the argument -y. -/
noncomputable def neglected (y : ℝ) : ℝ := ePhi 0 - ePhi (-y) - e1Terms y

/-- Their derivative. -/
noncomputable def neglectedSlope (s : ℝ) : ℝ := -eSlope (-s) - e1Terms' s

theorem neglected_hasDeriv (s : ℝ) : HasDerivAt neglected (neglectedSlope s) s := by
  have h1 := (ePhi_hasDeriv (-s)).comp s (hasDerivAt_neg s)
  refine (((h1.const_sub (ePhi 0))).sub (e1Terms_hasDeriv s)).congr_deriv ?_
  unfold neglectedSlope
  ring

theorem neglected_zero : neglected 0 = 0 := by
  unfold neglected e1Terms
  norm_num

theorem neglectedSlope_eq {s : ℝ} (hs : 0 < s) :
    neglectedSlope s = (Real.exp s - ∑ n ∈ Finset.range 11, s ^ n / (n.factorial : ℝ)) / s := by
  unfold neglectedSlope
  rw [eSlope_of_ne (neg_ne_zero.2 hs.ne'), neg_neg]
  simp only [Finset.sum_range_succ, Finset.sum_range_zero, Nat.factorial]
  unfold e1Terms'
  norm_num
  field_simp
  ring

theorem neglectedSlope_series {s : ℝ} (hs : 0 < s) :
    Summable (fun i : Nat => s ^ (i + 11) / ((i + 11).factorial : ℝ)) ∧
    s * neglectedSlope s = ∑' i : Nat, s ^ (i + 11) / ((i + 11).factorial : ℝ) := by
  have hsum : Summable (fun n : Nat => s ^ n / (n.factorial : ℝ)) := Real.summable_pow_div_factorial s
  refine ⟨(summable_nat_add_iff 11).2 hsum, ?_⟩
  have h := hsum.sum_add_tsum_nat_add 11
  have hx : Real.exp s = ∑' n : Nat, s ^ n / (n.factorial : ℝ) := by
    rw [Real.exp_eq_exp_ℝ, NormedSpace.exp_eq_tsum_div]
  rw [neglectedSlope_eq hs, hx, ← h, add_sub_cancel_left]
  field_simp

theorem neglectedSlope_mono {s t : ℝ} (hs : 0 < s) (hst : s ≤ t) : neglectedSlope s ≤ neglectedSlope t := by
  have ht : 0 < t := lt_of_lt_of_le hs hst
  obtain ⟨s1, e1⟩ := neglectedSlope_series hs
  obtain ⟨s2, e2⟩ := neglectedSlope_series ht
  have key : t * (s * neglectedSlope s) ≤ s * (t * neglectedSlope t) := by
    rw [e1, e2, ← tsum_mul_left, ← tsum_mul_left]
    refine (s1.mul_left t).tsum_le_tsum ?_ (s2.mul_left s)
    intro i
    have hp : s ^ (i + 10) ≤ t ^ (i + 10) := pow_le_pow_left₀ hs.le hst _
    have hf : (0 : ℝ) < ((i + 11).factorial : ℝ) := by positivity
    have e : t * (s ^ (i + 11) / ((i + 11).factorial : ℝ)) = t * s / ((i + 11).factorial : ℝ) * s ^ (i + 10) := by ring
    have e' : s * (t ^ (i + 11) / ((i + 11).factorial : ℝ)) = t * s / ((i + 11).factorial : ℝ) * t ^ (i + 10) := by ring
    rw [e, e']
    exact mul_le_mul_of_nonneg_left hp (by positivity)
  have hst' : 0 < s * t := mul_pos hs ht
  have : s * t * neglectedSlope s ≤ s * t * neglectedSlope t := by linarith
  exact le_of_mul_le_mul_left this hst'

theorem neglectedSlope_bounds {z : ℝ} (hz : 0 < z) :
    0 ≤ neglectedSlope z ∧ z * neglectedSlope z ≤ Real.exp z ∧ z * neglectedSlope z ≤ z * Real.exp z := by
  have hl := Real.sum_le_exp_of_nonneg hz.le 11
  have e : z * neglectedSlope z = Real.exp z - ∑ n ∈ Finset.range 11, z ^ n / (n.factorial : ℝ) := by
    rw [neglectedSlope_eq hz]
    field_simp
  have h1 : (1 : ℝ) ≤ ∑ n ∈ Finset.range 11, z ^ n / (n.factorial : ℝ) := by
    rw [Finset.sum_range_succ']
    have : 0 ≤ ∑ n ∈ Finset.range 10, z ^ (n + 1) / ((n + 1).factorial : ℝ) :=
      Finset.sum_nonneg (fun n _ => by positivity)
    simpa using this
  have h2 := Real.add_one_le_exp (-z)
  have h3 := mul_le_mul_of_nonneg_left h2 (Real.exp_pos z).le
  rw [← Real.exp_add, add_neg_cancel, Real.exp_zero] at h3
  refine ⟨?_, ?_, ?_⟩
  · rw [neglectedSlope_eq hz]
    exact div_nonneg (by linarith) hz.le
  · linarith
  · linarith

/-- The neglected terms grow faster and faster. -/
theorem neglected_shift {a a' d : ℝ} (ha : 0 ≤ a) (haa : a ≤ a') (hd : 0 ≤ d) :
    neglected (a + d) - neglected a ≤ neglected (a' + d) - neglected a' := by
  have hder : ∀ s, HasDerivAt (fun s => neglected (s + d) - neglected s) (neglectedSlope (s + d) - neglectedSlope s) s := by
    intro s
    have := ((neglected_hasDeriv (s + d)).comp_add_const s d)
    exact this.sub (neglected_hasDeriv s)
  have hm : MonotoneOn (fun s => neglected (s + d) - neglected s) (Ici 0) := by
    apply monotoneOn_of_deriv_nonneg (convex_Ici 0)
    · exact fun s _ => (hder s).continuousAt.continuousWithinAt
    · exact fun s _ => (hder s).differentiableAt.differentiableWithinAt
    · intro t ht
      rw [interior_Ici] at ht
      rw [(hder t).deriv, sub_nonneg]
      exact neglectedSlope_mono ht (by linarith)
  exact hm (show a ∈ Ici 0 from ha) (show a' ∈ Ici 0 from ha.trans haa) haa

/-- The exponential integral exceeds the effect of the neglected terms, point by point. -/
theorem neglected_pointwise {u w k : ℝ} (hu : 0 < u) (hw : 0 ≤ w) (hk : 0 < k) :
    k / (k + 1) * neglectedSlope (k * u) * Real.exp (-((k + 1) * (u + w))) ≤ trueE1 (u + w) := by
  have hz : 0 < k * u := mul_pos hk hu
  obtain ⟨b0, b1, b2⟩ := neglectedSlope_bounds hz
  have hE := (trueE1_bounds (show 0 < u + w by linarith)).1
  refine le_trans ?_ hE
  set r := neglectedSlope (k * u) with hr
  -- (u + w + 1) k r <= (k + 1) exp(k (u + w))
  have hx : 1 + k * w ≤ Real.exp (k * w) := by have := Real.add_one_le_exp (k * w); linarith
  have hXp := Real.exp_pos (k * u)
  have main : (u + w + 1) * (k * r) ≤ (k + 1) * Real.exp (k * (u + w)) := by
    have s1 : u * (k * r) ≤ Real.exp (k * u) := by linarith [b1]
    have s2 : k * r ≤ k * Real.exp (k * u) := by
      have : r ≤ Real.exp (k * u) := le_of_mul_le_mul_left b2 hz
      exact mul_le_mul_of_nonneg_left this hk.le
    have s3 := mul_le_mul_of_nonneg_left s2 hw
    have s4 : (1 + k * w) * Real.exp (k * u) ≤ Real.exp (k * (u + w)) := by
      rw [mul_add, Real.exp_add, mul_comm]
      exact mul_le_mul_of_nonneg_left hx hXp.le
    have s5 := mul_le_mul_of_nonneg_left s4 (show (0 : ℝ) ≤ k + 1 by linarith)
    have s6 : 0 ≤ k * k * w * Real.exp (k * u) := by positivity
    nlinarith
  have e : Real.exp (-((k + 1) * (u + w))) = Real.exp (-(u + w)) * Real.exp (-(k * (u + w))) := by
    rw [← Real.exp_add]; congr 1; ring
  rw [e]
  have hi : Real.exp (k * (u + w)) * Real.exp (-(k * (u + w))) = 1 := by rw [← Real.exp_add]; simp
  have hX2 := Real.exp_pos (-(k * (u + w)))
  have hX3 := Real.exp_pos (-(u + w))
  have m2 := mul_le_mul_of_nonneg_right main hX2.le
  rw [mul_assoc (k + 1), hi, mul_one] at m2
  have goal' : k / (k + 1) * r * Real.exp (-(k * (u + w))) ≤ 1 / (u + w + 1) := by
    rw [le_div_iff₀ (by linarith)]
    have : k / (k + 1) * r * Real.exp (-(k * (u + w))) * (u + w + 1)
        = ((u + w + 1) * (k * r) * Real.exp (-(k * (u + w)))) / (k + 1) := by
      field_simp
    rw [this, div_le_one (by linarith)]
    exact m2
  calc k / (k + 1) * r * (Real.exp (-(u + w)) * Real.exp (-(k * (u + w))))
      = Real.exp (-(u + w)) * (k / (k + 1) * r * Real.exp (-(k * (u + w)))) := by ring
    _ ≤ _ := mul_le_mul_of_nonneg_left goal' hX3.le

/-- The inner integral covers the effect of the neglected terms on the depth x. -/
theorem neglected_inner {p q m1 m2 b x d2 : ℝ} (hp : 0 < p) (hm1 : 0 < m1) (hm2 : 0 < m2) (hqm : m1 < q) (hb : 0 ≤ b)
    (hx : 0 < x) (hd2 : 0 ≤ d2) :
    m1 / (q * (p * m1 + q * m2)) * Real.exp (-(q / m1 * b)) * (1 - Real.exp (-((p * m1 + q * m2) / m1 * d2)))
        * (neglectedSlope ((q / m1 - 1) * (m1 * x + b)) * ((q / m1 - 1) * m1))
      ≤ exactU p q m1 m2 b x d2 - exactU p q m1 m2 b x 0 := by
  have hq : 0 < q := hm1.trans hqm
  have hk : 0 < q / m1 - 1 := by rw [sub_pos, lt_div_iff₀ hm1]; linarith
  have hu : 0 < m1 * x + b := by have := mul_pos hm1 hx; linarith
  have hS : 0 < p * m1 + q * m2 := by positivity
  have hc1 : 1 + p / m2 ≠ 0 := by positivity
  set S := p * m1 + q * m2 with hSd
  set k := q / m1 - 1 with hkd
  set r := neglectedSlope (k * (m1 * x + b)) with hr
  set C := Real.exp (-(q / m1 * b)) * (k / (k + 1) * r) with hC
  have hqk : q = (k + 1) * m1 := by rw [hkd]; field_simp; ring
  have hder : ∀ y, 0 ≤ y → HasDerivAt (fun y => exactU p q m1 m2 b x y + C * (m1 / S) * Real.exp (-(S / m1 * y)))
      (Real.exp (q * x - p * y) * trueE1 (m1 * x + b + m2 * y) - C * Real.exp (-(S / m1 * y))) y := by
    intro y hy
    have hh : 0 < m1 * x + b + m2 * y := by have := mul_nonneg hm2.le hy; linarith
    have g : HasDerivAt (fun y : ℝ => Real.exp (-(S / m1 * y))) (Real.exp (-(S / m1 * y)) * (-(S / m1))) y := by
      have := (lin_hasDeriv (-(S / m1)) 0 y).exp
      simpa using this
    refine ((exactU_hasDeriv hp.ne' hm2 hc1 hh).add (g.const_mul (C * (m1 / S)))).congr_deriv ?_
    have : C * (m1 / S) * (Real.exp (-(S / m1 * y)) * -(S / m1)) = -(C * Real.exp (-(S / m1 * y))) * (m1 / S * (S / m1)) := by
      ring
    rw [this, div_mul_div_comm, mul_comm m1 S, div_self (mul_pos hS hm1).ne']
    ring
  have hm : MonotoneOn (fun y => exactU p q m1 m2 b x y + C * (m1 / S) * Real.exp (-(S / m1 * y))) (Icc 0 d2) := by
    apply monotoneOn_of_deriv_nonneg (convex_Icc 0 d2)
    · exact fun s hs => (hder s hs.1).continuousAt.continuousWithinAt
    · intro s hs
      rw [interior_Icc] at hs
      exact (hder s hs.1.le).differentiableAt.differentiableWithinAt
    · intro y hy
      rw [interior_Icc] at hy
      have hy0 : 0 ≤ y := hy.1.le
      rw [(hder y hy0).deriv, sub_nonneg]
      have hw : 0 ≤ m2 * y := mul_nonneg hm2.le hy0
      have h := neglected_pointwise hu hw hk
      rw [← hr] at h
      have h2 := mul_le_mul_of_nonneg_left h (Real.exp_pos (q * x - p * y)).le
      refine le_trans (le_of_eq ?_) h2
      have e : Real.exp (-(q / m1 * b)) * Real.exp (-(S / m1 * y))
          = Real.exp (q * x - p * y) * Real.exp (-((k + 1) * (m1 * x + b + m2 * y))) := by
        rw [← Real.exp_add, ← Real.exp_add]
        congr 1
        rw [hSd, hqk]
        field_simp
        ring
      rw [hC]
      calc _ = k / (k + 1) * r * (Real.exp (-(q / m1 * b)) * Real.exp (-(S / m1 * y))) := by ring
        _ = _ := by rw [e]; ring
  have h := hm (show (0 : ℝ) ∈ Icc 0 d2 from ⟨le_rfl, hd2⟩) (show d2 ∈ Icc 0 d2 from ⟨hd2, le_rfl⟩) hd2
  simp only [mul_zero, neg_zero, Real.exp_zero, mul_one] at h
  refine le_trans (le_of_eq ?_) (show C * (m1 / S) * (1 - Real.exp (-(S / m1 * d2))) ≤ _ by linarith)
  rw [hC]
  have e2 : m1 / (q * S) * (k * m1) = k / (k + 1) * (m1 / S) := by
    rw [hqk]
    have : k + 1 ≠ 0 := by linarith
    field_simp
  calc _ = (m1 / (q * S) * (k * m1)) * (Real.exp (-(q / m1 * b)) * r * (1 - Real.exp (-(S / m1 * d2)))) := by ring
    _ = _ := by rw [e2]; ring

/-- The double integral plus the effect of the neglected terms is not negative. -/
theorem neglected_cross {p q d1 d2 m1 m2 b : ℝ} (hp : 0 < p) (hm1 : 0 < m1) (hm2 : 0 < m2) (hqm : m1 < q) (hb : 0 ≤ b)
    (hd1 : 0 < d1) (hd2 : 0 ≤ d2) :
    0 ≤ cornerV p q m1 m2 b d1 d2 - cornerV p q m1 m2 b d1 0 - cornerV p q m1 m2 b 0 d2 + cornerV p q m1 m2 b 0 0
      + m1 / (q * (p * m1 + q * m2)) * Real.exp (-(q / m1 * b)) *
        (Real.exp (-((p * m1 + q * m2) / m1 * d2)) * (neglected ((q / m1 - 1) * (m1 * d1 + b + m2 * d2))
            - neglected ((q / m1 - 1) * (b + m2 * d2)))
          - (neglected ((q / m1 - 1) * (m1 * d1 + b)) - neglected ((q / m1 - 1) * b))) := by
  have hq : 0 < q := hm1.trans hqm
  have hk : 0 < q / m1 - 1 := by rw [sub_pos, lt_div_iff₀ hm1]; linarith
  have hS : 0 < p * m1 + q * m2 := by positivity
  have hc1 : 1 + p / m2 ≠ 0 := by positivity
  have hc2 : 1 - q / m1 ≠ 0 := by intro h; linarith
  set T := m1 / (q * (p * m1 + q * m2)) * Real.exp (-(q / m1 * b)) with hT
  have hT0 : 0 < T := by positivity
  set X := Real.exp (-((p * m1 + q * m2) / m1 * d2)) with hX
  have hX0 : 0 < X := Real.exp_pos _
  have hX1 : X ≤ 1 := by
    rw [hX, Real.exp_le_one_iff, neg_nonpos]
    positivity
  have hpos' : ∀ x y, 0 < x → 0 ≤ y → 0 < m1 * x + b + m2 * y := fun x y hx hy => by
    have := mul_pos hm1 hx; have := mul_nonneg hm2.le hy; linarith
  set k := q / m1 - 1 with hkd
  set G : ℝ → ℝ := fun x => exactV p q m1 m2 b x d2 - exactV p q m1 m2 b x 0 - T * (1 - X) * neglected (k * (m1 * x + b))
    with hG
  have hder : ∀ x, 0 < x → HasDerivAt G (exactU p q m1 m2 b x d2 - exactU p q m1 m2 b x 0
      - T * (1 - X) * (neglectedSlope (k * (m1 * x + b)) * (k * m1))) x := by
    intro x hx
    have hl : HasDerivAt (fun x : ℝ => k * (m1 * x + b)) (k * m1) x := (lin_hasDeriv m1 b x).const_mul k
    have h1 := (neglected_hasDeriv (k * (m1 * x + b))).comp x hl
    exact ((exactV_hasDeriv hp.ne' hq.ne' hm1 hm2 hS.ne' hc1 hc2 (hpos' x d2 hx hd2)).sub
      (exactV_hasDeriv hp.ne' hq.ne' hm1 hm2 hS.ne' hc1 hc2 (hpos' x 0 hx le_rfl))).sub (h1.const_mul (T * (1 - X)))
  have hmono : ∀ e, 0 < e → e ≤ d1 → G e ≤ G d1 := by
    intro e he hed
    have hm : MonotoneOn G (Icc e d1) := by
      apply monotoneOn_of_deriv_nonneg (convex_Icc e d1)
      · exact fun s hs => (hder s (he.trans_le hs.1)).continuousAt.continuousWithinAt
      · intro s hs
        rw [interior_Icc] at hs
        exact (hder s (he.trans hs.1)).differentiableAt.differentiableWithinAt
      · intro s hs
        rw [interior_Icc] at hs
        rw [(hder s (he.trans hs.1)).deriv, sub_nonneg]
        exact neglected_inner hp hm1 hm2 hqm hb (he.trans hs.1) hd2
    exact hm (left_mem_Icc.2 hed) (right_mem_Icc.2 hed) hed
  have hlim : Tendsto G (𝓝[>] 0) (𝓝 (cornerV p q m1 m2 b 0 d2 - cornerV p q m1 m2 b 0 0 - T * (1 - X) * neglected (k * b))) := by
    have hn : Tendsto (fun x : ℝ => neglected (k * (m1 * x + b))) (𝓝[>] 0) (𝓝 (neglected (k * b))) := by
      have hl : HasDerivAt (fun x : ℝ => k * (m1 * x + b)) (k * m1) 0 := (lin_hasDeriv m1 b 0).const_mul k
      have h1 := (neglected_hasDeriv (k * (m1 * 0 + b))).comp 0 hl
      have h2 := h1.continuousAt.tendsto
      simp only [Function.comp_def, mul_zero, zero_add] at h2
      exact h2.mono_left nhdsWithin_le_nhds
    exact ((cornerV_tendsto hp.ne' hq.ne' hm1 hm2 hS.ne' hc1 hc2 hb hd2).sub
      (cornerV_tendsto hp.ne' hq.ne' hm1 hm2 hS.ne' hc1 hc2 hb le_rfl)).sub (hn.const_mul (T * (1 - X)))
  have hle : cornerV p q m1 m2 b 0 d2 - cornerV p q m1 m2 b 0 0 - T * (1 - X) * neglected (k * b) ≤ G d1 := by
    refine le_of_tendsto hlim ?_
    filter_upwards [Ioo_mem_nhdsGT hd1] with e he
    exact hmono e he.1 he.2.le
  have n1 : ∀ y, cornerV p q m1 m2 b d1 y = exactV p q m1 m2 b d1 y := fun y => by
    unfold cornerV
    rw [if_neg (fun h => hd1.ne' h.2.1)]
  rw [n1, n1]
  have hconv := neglected_shift (a := k * b) (a' := k * (b + m2 * d2)) (d := k * (m1 * d1)) (by positivity)
    (by have : 0 ≤ k * (m2 * d2) := by positivity
        linarith) (by positivity)
  have a1 : k * b + k * (m1 * d1) = k * (m1 * d1 + b) := by ring
  have a2 : k * (b + m2 * d2) + k * (m1 * d1) = k * (m1 * d1 + b + m2 * d2) := by ring
  rw [a1, a2] at hconv
  have h3 := mul_le_mul_of_nonneg_left hconv (mul_pos hT0 hX0).le
  simp only [hG] at hle
  nlinarith

/-! ## The code -/

/-- `deBoerD` at a negative argument, with the neglected terms written out. -/
theorem deBoerD_neg_exact {y : ℝ} (hy : 0 < y) :
    deBoerD (-y) = .ok (some (Real.exp (-y) * (pvE1 (-y) + neglected y + (-0.577215664901532860 - ePhi 0)))) := by
  have hx : -y < 0 := by linarith
  unfold deBoerD
  rw [if_pos hx, E1_negative hx, neg_neg]
  unfold pvE1 neglected
  rw [Real.log_neg_eq_log]
  change Outcome.ok (some (Real.exp (-y) * (-0.577215664901532860 - e1Terms y - Real.log y))) = _
  congr 3
  ring

theorem deBoerV_formula {p q x y m1 m2 b D1 D2 D3 : ℝ} (hp : p ≠ 0) (hq : q ≠ 0) (hm1 : 0 < m1) (hm2 : 0 < m2)
    (hS : p * m1 + q * m2 ≠ 0) (h0 : ¬ (b = 0 ∧ x = 0 ∧ y = 0))
    (e1 : deBoerD ((1 + p / m2) * (m1 * x + b + m2 * y)) = .ok (some D1))
    (e2 : deBoerD ((1 - q / m1) * (m1 * x + b + m2 * y)) = .ok (some D2))
    (e3 : deBoerD (m1 * x + b + m2 * y) = .ok (some D3)) :
    deBoerV p q x y m1 m2 b = .ok (formulaV p q x y m1 m2 b D1 D2 D3) := by
  unfold deBoerV fdiv
  rw [if_neg h0, if_neg hm1.ne', if_neg hm2.ne', if_neg (mul_ne_zero hp hS), if_neg (mul_ne_zero hq hS)]
  simp only [finiteOr, Outcome.ok_bind, e1, e2, e3, Option.map_some, Option.bind_some,
    if_neg (mul_ne_zero hp hq), formulaV, Outcome.pure_eq]

theorem deBoerV_zero {p q m1 m2 : ℝ} (hp : p ≠ 0) (hq : q ≠ 0) (hm1 : 0 < m1) (hm2 : 0 < m2)
    (hS : p * m1 + q * m2 ≠ 0) (hc1 : 1 + p / m2 ≠ 0) (hc2 : 1 - q / m1 ≠ 0) :
    deBoerV p q 0 0 m1 m2 0 = .ok (corner00 p q m1 m2) := by
  unfold deBoerV
  rw [if_pos ⟨rfl, rfl, rfl⟩]
  unfold deBoerV00 fdiv flog
  rw [if_neg hm1.ne', if_neg hm2.ne', if_neg hp, if_neg hq]
  simp only [Option.bind_eq_bind, Option.bind_some, Real.log_abs]
  rw [if_neg (not_le.2 (abs_pos.2 hc1)), if_neg (not_le.2 (abs_pos.2 hc2))]
  simp [hS, finiteOr, corner00]

/-- The two directions are the same function: the layers exchanged and the signs changed. -/
theorem deBoerV_swap {p q x y m1 m2 b : ℝ} (hp : p ≠ 0) (hq : q ≠ 0) (hm1 : 0 < m1) (hm2 : 0 < m2)
    (hS : p * m1 + q * m2 ≠ 0) (hc1 : 1 + p / m2 ≠ 0) (hc2 : 1 - q / m1 ≠ 0) (hb : 0 ≤ b) (hx : 0 ≤ x) (hy : 0 ≤ y) :
    deBoerV p q x y m1 m2 b = deBoerV (-q) (-p) y x m2 m1 b := by
  have hS' : -q * m2 + -p * m1 ≠ 0 := by intro h; apply hS; linarith
  have c1 : 1 + -q / m1 = 1 - q / m1 := by ring
  have c2 : 1 - -p / m2 = 1 + p / m2 := by ring
  by_cases h0 : b = 0 ∧ x = 0 ∧ y = 0
  · obtain ⟨rfl, rfl, rfl⟩ := h0
    rw [deBoerV_zero hp hq hm1 hm2 hS hc1 hc2, deBoerV_zero (neg_ne_zero.2 hq) (neg_ne_zero.2 hp) hm2 hm1 hS'
      (by rwa [c1]) (by rwa [c2])]
    unfold corner00
    rw [c1, c2]
    have e : -q * m2 + -p * m1 = -(p * m1 + q * m2) := by ring
    rw [e, div_neg, div_neg, div_neg]
    congr 1
    ring
  · have hh := corner_pos hm1 hm2 hb hx hy h0
    obtain ⟨D1, hD1, -⟩ := deBoerD_pv (mul_ne_zero hc1 hh.ne')
    obtain ⟨D2, hD2, -⟩ := deBoerD_pv (mul_ne_zero hc2 hh.ne')
    obtain ⟨D3, hD3, -⟩ := deBoerD_pv hh.ne'
    have he : m2 * y + b + m1 * x = m1 * x + b + m2 * y := by ring
    rw [deBoerV_formula hp hq hm1 hm2 hS h0 hD1 hD2 hD3,
      deBoerV_formula (D1 := D2) (D2 := D1) (D3 := D3) (neg_ne_zero.2 hq) (neg_ne_zero.2 hp) hm2 hm1 hS'
        (fun h => h0 ⟨h.1, h.2.2, h.2.1⟩) (by rw [c1, he]; exact hD2) (by rw [c2, he]; exact hD1) (by rw [he]; exact hD3)]
    unfold formulaV
    have e : -q * m2 + -p * m1 = -(p * m1 + q * m2) := by ring
    have ex : (-p - m2) * y - (-q + m1) * x - b = (q - m1) * x - (p + m2) * y - b := by ring
    rw [e, ex, neg_mul_neg, neg_mul_neg, neg_mul_neg, mul_comm q p]
    congr 1
    ring

/-- **C137** Exchanging the two layers and the two directions gives the same value. -/
theorem C137_exchange {p q d1 d2 mu1j mu2j mubjdt : ℝ} (hp : p ≠ 0) (hq : q ≠ 0) (h1 : 0 < mu1j) (h2 : 0 < mu2j)
    (hS : p * mu1j + q * mu2j ≠ 0) (hc1 : p ≠ -mu2j) (hc2 : q ≠ mu1j) (hb : 0 ≤ mubjdt) (hd1 : 0 ≤ d1) (hd2 : 0 ≤ d2) :
    ∃ v, deBoerX p q d1 d2 mu1j mu2j mubjdt = .ok v ∧ deBoerX (-q) (-p) d2 d1 mu2j mu1j mubjdt = .ok v := by
  have k1 : 1 + p / mu2j ≠ 0 := by
    have : (1 + p / mu2j) = (mu2j + p) / mu2j := by field_simp
    rw [this]
    exact div_ne_zero (fun h => hc1 (by linarith)) h2.ne'
  have k2 : 1 - q / mu1j ≠ 0 := by
    have : (1 - q / mu1j) = (mu1j - q) / mu1j := by field_simp
    rw [this]
    exact div_ne_zero (fun h => hc2 (by linarith)) h1.ne'
  have acc := fun {x y : ℝ} (hx : 0 ≤ x) (hy : 0 ≤ y) => deBoerV_accuracy hp hq h1 h2 hS k1 k2 hb hx hy
  have sw := fun {x y : ℝ} (hx : 0 ≤ x) (hy : 0 ≤ y) => deBoerV_swap hp hq h1 h2 hS k1 k2 hb hx hy
  obtain ⟨va, ea, -⟩ := acc hd1 hd2
  obtain ⟨vb, eb, -⟩ := acc hd1 (le_refl (0 : ℝ))
  obtain ⟨vc, ec, -⟩ := acc (le_refl (0 : ℝ)) hd2
  obtain ⟨ve, ee, -⟩ := acc (le_refl (0 : ℝ)) (le_refl (0 : ℝ))
  refine ⟨va - vb - vc + ve, ?_, ?_⟩
  · unfold deBoerX
    rw [ea, eb, ec, ee]
    rfl
  · unfold deBoerX
    rw [← sw hd1 hd2, ← sw hd1 le_rfl, ← sw le_rfl hd2, ← sw le_rfl le_rfl, ea, eb, ec, ee]
    show Outcome.ok _ = Outcome.ok _
    congr 1
    ring

/-- The error of one corner, without the neglected terms of negative arguments: the exponential integral is exact up to
the relative error 1.2e-6 of positive arguments, and the constant of its series up to 3e-9. -/
noncomputable def positiveError (p q m1 m2 b x y : ℝ) : ℝ :=
  if b = 0 ∧ x = 0 ∧ y = 0 then 3e-9 * (m1 / (q * (p * m1 + q * m2)))
  else 1.2e-6 * Real.exp ((q - m1) * x - (p + m2) * y - b) / (m1 * x + b + m2 * y)
    * (m2 ^ 2 / (p * (p * m1 + q * m2) * (m2 + p))
      + (if q < m1 then m1 ^ 2 / (q * (p * m1 + q * m2) * (m1 - q)) else 0) + 1 / (p * q))

theorem deBoerV_negative {p q x y m1 m2 b : ℝ} (hp : 0 < p) (hm1 : 0 < m1) (hm2 : 0 < m2) (hqm : m1 < q) (hb : 0 ≤ b)
    (hx : 0 ≤ x) (hy : 0 ≤ y) (h0 : ¬ (b = 0 ∧ x = 0 ∧ y = 0)) :
    ∃ v, deBoerV p q x y m1 m2 b = .ok v ∧
      |v - (cornerV p q m1 m2 b x y + m1 / (q * (p * m1 + q * m2)) * Real.exp (-(q / m1 * b)) *
        Real.exp (-((p * m1 + q * m2) / m1 * y)) *
          (neglected ((q / m1 - 1) * (m1 * x + b + m2 * y)) + (-0.577215664901532860 - ePhi 0)))|
        ≤ positiveError p q m1 m2 b x y := by
  have hq : 0 < q := hm1.trans hqm
  have hk : 0 < q / m1 - 1 := by rw [sub_pos, lt_div_iff₀ hm1]; linarith
  have hS : 0 < p * m1 + q * m2 := by positivity
  have hc1 : 0 < 1 + p / m2 := by positivity
  have hh := corner_pos hm1 hm2 hb hx hy h0
  unfold positiveError cornerV
  rw [if_neg h0, if_neg h0, if_neg (not_lt.2 hqm.le), ← formulaV_exact hm1 hm2]
  obtain ⟨D1, hD1, b1⟩ := deBoerD_pv (mul_pos hc1 hh).ne'
  obtain ⟨D3, hD3, b3⟩ := deBoerD_pv hh.ne'
  have hD2 := deBoerD_neg_exact (mul_pos hk hh)
  have an : -((q / m1 - 1) * (m1 * x + b + m2 * y)) = (1 - q / m1) * (m1 * x + b + m2 * y) := by ring
  rw [an] at hD2
  refine ⟨_, deBoerV_formula hp.ne' hq.ne' hm1 hm2 hS.ne' h0 hD1 hD2 hD3, ?_⟩
  rw [show errD ((1 + p / m2) * (m1 * x + b + m2 * y)) = 1.2e-6 / ((1 + p / m2) * (m1 * x + b + m2 * y)) from
    if_pos (mul_pos hc1 hh)] at b1
  rw [show errD (m1 * x + b + m2 * y) = 1.2e-6 / (m1 * x + b + m2 * y) from if_pos hh, pvE1_pos hh] at b3
  have e2 : Real.exp (-(q / m1 * b)) * Real.exp (-((p * m1 + q * m2) / m1 * y))
      = Real.exp ((q - m1) * x - (p + m2) * y - b) * Real.exp ((1 - q / m1) * (m1 * x + b + m2 * y)) := by
    rw [← Real.exp_add, ← Real.exp_add]; congr 1; field_simp; ring
  have g1 : (1.2e-6 : ℝ) / ((1 + p / m2) * (m1 * x + b + m2 * y)) = 1.2e-6 / (m1 * x + b + m2 * y) * (m2 / (m2 + p)) := by
    have := hh.ne'
    have : m2 + p ≠ 0 := by positivity
    generalize m1 * x + b + m2 * y = h at *
    have e : 1 + p / m2 = (m2 + p) / m2 := by field_simp
    rw [e]
    field_simp
  rw [g1] at b1
  rw [mul_assoc (m1 / _) (Real.exp _) (Real.exp _), e2]
  unfold formulaV
  generalize Real.exp ((1 + p / m2) * (m1 * x + b + m2 * y)) * pvE1 ((1 + p / m2) * (m1 * x + b + m2 * y)) = T1 at *
  generalize Real.exp (m1 * x + b + m2 * y) * trueE1 (m1 * x + b + m2 * y) = T3 at *
  generalize neglected ((q / m1 - 1) * (m1 * x + b + m2 * y)) = N at *
  generalize pvE1 ((1 - q / m1) * (m1 * x + b + m2 * y)) = P2 at *
  generalize Real.exp ((1 - q / m1) * (m1 * x + b + m2 * y)) = X2 at *
  generalize (-0.577215664901532860 - ePhi 0 : ℝ) = g at *
  have hE := Real.exp_pos ((q - m1) * x - (p + m2) * y - b)
  generalize Real.exp ((q - m1) * x - (p + m2) * y - b) = E at *
  generalize hh' : (1.2e-6 : ℝ) / (m1 * x + b + m2 * y) = h at *
  have e : E * (m2 / (p * (p * m1 + q * m2)) * D1 + (m1 / (q * (p * m1 + q * m2)) * (X2 * (P2 + N + g)) - D3 / (p * q)))
      - (E * (m2 / (p * (p * m1 + q * m2)) * T1 + (m1 / (q * (p * m1 + q * m2)) * (X2 * P2) - T3 / (p * q)))
        + m1 / (q * (p * m1 + q * m2)) * (E * X2) * (N + g))
      = E * (m2 / (p * (p * m1 + q * m2)) * (D1 - T1) - (D3 - T3) / (p * q)) := by ring
  rw [e, abs_mul, abs_of_pos hE]
  have e' : 1.2e-6 * E / (m1 * x + b + m2 * y) * (m2 ^ 2 / (p * (p * m1 + q * m2) * (m2 + p)) + 0 + 1 / (p * q))
      = E * (m2 / (p * (p * m1 + q * m2)) * (h * (m2 / (m2 + p))) + h / (p * q)) := by
    rw [← hh', ← div_div]
    ring
  rw [e']
  apply mul_le_mul_of_nonneg_left _ hE.le
  refine le_trans (abs_sub _ _) (add_le_add ?_ ?_)
  · rw [abs_mul, abs_of_pos (show 0 < m2 / (p * (p * m1 + q * m2)) by positivity)]
    exact mul_le_mul_of_nonneg_left b1 (by positivity)
  · rw [abs_div, abs_of_pos (mul_pos hp hq)]
    exact div_le_div_of_nonneg_right b3 (by positivity)

/-- The sum of the four corners. -/
noncomputable def crossSlack (p q d1 d2 m1 m2 b : ℝ) : ℝ :=
  positiveError p q m1 m2 b d1 d2 + positiveError p q m1 m2 b d1 0 + positiveError p q m1 m2 b 0 d2
    + positiveError p q m1 m2 b 0 0

/-- **C137** (partial) Upwards: the result is never below zero by more than the error of the exponential integral at
positive arguments, however wrong the exponential integral of the negative argument is. Missing: the result is not the
double integral, see `C137_cross_layer_violated`. -/
theorem C137_not_negative_partial {p q d1 d2 mu1j mu2j mubjdt : ℝ} (hp : 0 < p) (hq : 0 < q) (h1 : 0 < mu1j)
    (h2 : 0 < mu2j) (hne : q ≠ mu1j) (hb : 0 ≤ mubjdt) (hd1 : 0 < d1) (hd2 : 0 ≤ d2) :
    ∃ v, deBoerX p q d1 d2 mu1j mu2j mubjdt = .ok v ∧ -crossSlack p q d1 d2 mu1j mu2j mubjdt ≤ v := by
  have hS : 0 < p * mu1j + q * mu2j := by positivity
  rcases lt_or_gt_of_ne hne with hlt | hgt
  · obtain ⟨v, hv, hI⟩ := C137_cross_layer_partial hp.ne' hq.ne' h1 h2 hS.ne' (by linarith) hne hb hd1 hd2
    refine ⟨v, hv, ?_⟩
    have hI0 : 0 ≤ ∫ x in (0 : ℝ)..d1, ∫ y in (0 : ℝ)..d2,
        Real.exp (q * x - p * y) * ∫ t in Set.Ioi (mu1j * x + mubjdt + mu2j * y), Real.exp (-t) / t := by
      rw [intervalIntegral.integral_of_le hd1.le]
      apply setIntegral_nonneg measurableSet_Ioc
      intro x hx
      apply inner_cross_nonneg h2 _ hd2
      have := mul_pos h1 hx.1
      linarith
    have hc : ∀ x y, 0 ≤ x → 0 ≤ y → cornerError p q mu1j mu2j mubjdt x y ≤ positiveError p q mu1j mu2j mubjdt x y := by
      intro x y hx hy
      by_cases h0 : mubjdt = 0 ∧ x = 0 ∧ y = 0
      · unfold cornerError positiveError
        rw [if_pos h0, if_pos h0]
        positivity
      · rw [C137_error_small_partial h1 h2 (by linarith) (by linarith) hb hx hy h0]
        unfold positiveError
        rw [if_neg h0, if_pos hlt, abs_of_pos (mul_pos hp hS), abs_of_pos (mul_pos hq hS), abs_of_pos (mul_pos hp hq)]
    unfold crossSlack
    have := (abs_le.1 hI).1
    linarith [hc d1 d2 hd1.le hd2, hc d1 0 hd1.le le_rfl, hc 0 d2 le_rfl hd2, hc 0 0 le_rfl le_rfl]
  · have hgt : mu1j < q := hgt
    have hc1 : 1 + p / mu2j ≠ 0 := by positivity
    have hc2 : 1 - q / mu1j ≠ 0 := by
      have : 1 < q / mu1j := by rw [lt_div_iff₀ h1]; linarith
      intro h; linarith
    have key := neglected_cross hp h1 h2 hgt hb hd1 hd2
    have acc := fun {x y : ℝ} (hx : 0 ≤ x) (hy : 0 ≤ y) => deBoerV_negative hp h1 h2 hgt hb hx hy
    obtain ⟨va, ea, ba⟩ := acc hd1.le hd2 (fun h => hd1.ne' h.2.1)
    obtain ⟨vb, eb, bb⟩ := acc hd1.le (le_refl (0 : ℝ)) (fun h => hd1.ne' h.2.1)
    have g := abs_le.1 ePhi_zero
    set T := mu1j / (q * (p * mu1j + q * mu2j)) * Real.exp (-(q / mu1j * mubjdt)) with hT
    set X := Real.exp (-((p * mu1j + q * mu2j) / mu1j * d2)) with hX
    have hX0 : Real.exp (-((p * mu1j + q * mu2j) / mu1j * 0)) = 1 := by simp
    unfold crossSlack
    have dX : ∀ {a b c e : ℝ}, deBoerV p q d1 d2 mu1j mu2j mubjdt = .ok a → deBoerV p q d1 0 mu1j mu2j mubjdt = .ok b →
        deBoerV p q 0 d2 mu1j mu2j mubjdt = .ok c → deBoerV p q 0 0 mu1j mu2j mubjdt = .ok e →
        deBoerX p q d1 d2 mu1j mu2j mubjdt = .ok (a - b - c + e) := by
      intro a b c e h1 h2 h3 h4
      unfold deBoerX
      rw [h1, h2, h3, h4]
      rfl
    have r1 : mu1j * d1 + mubjdt + mu2j * 0 = mu1j * d1 + mubjdt := by ring
    have r2 : mu1j * 0 + mubjdt + mu2j * d2 = mubjdt + mu2j * d2 := by ring
    have r3 : mu1j * 0 + mubjdt + mu2j * 0 = mubjdt := by ring
    rw [hX0, r1] at bb
    have ba' := (abs_le.1 ba).1
    have bb' := (abs_le.1 bb).2
    by_cases hz : mubjdt = 0
    · -- the exact corner
      subst hz
      have e0 := deBoerV_zero hp.ne' hq.ne' h1 h2 hS.ne' hc1 hc2
      have c0 : cornerV p q mu1j mu2j 0 0 0 = corner00 p q mu1j mu2j := if_pos ⟨rfl, rfl, rfl⟩
      have p0 : positiveError p q mu1j mu2j 0 0 0 = 3e-9 * (mu1j / (q * (p * mu1j + q * mu2j))) := if_pos ⟨rfl, rfl, rfl⟩
      have hTz : T = mu1j / (q * (p * mu1j + q * mu2j)) := by rw [hT]; simp
      have hT0 : 0 < T := by rw [hTz]; positivity
      rw [p0, ← hTz]
      rw [c0] at key
      simp only [mul_zero, neglected_zero] at key
      rcases hd2.eq_or_lt with hd | hd
      · subst hd
        rw [e0] at *
        refine ⟨_, dX eb eb e0 e0, ?_⟩
        have hp' : ∀ x y, 0 ≤ x → 0 ≤ y → 0 ≤ positiveError p q mu1j mu2j 0 x y := by
          intro x y hx hy
          unfold positiveError
          rw [if_neg (not_lt.2 hgt.le)]
          split_ifs
          · positivity
          · positivity
        have := hp' d1 0 hd1.le le_rfl
        have := hp' 0 0 le_rfl le_rfl
        have : 0 ≤ 3e-9 * T := by positivity
        linarith
      · obtain ⟨vc, ec, bc⟩ := acc (le_refl (0 : ℝ)) hd2 (fun h => hd.ne' h.2.2)
        rw [r2] at bc
        have bc' := (abs_le.1 bc).2
        refine ⟨_, dX ea eb ec e0, ?_⟩
        have hgT : T * (-0.577215664901532860 - ePhi 0) ≤ 3e-9 * T := by
          have := mul_le_mul_of_nonneg_left (show (-0.577215664901532860 - ePhi 0 : ℝ) ≤ 3e-9 by
            norm_num at g ⊢; linarith [g.1]) hT0.le
          linarith
        nlinarith
    · obtain ⟨vc, ec, bc⟩ := acc (le_refl (0 : ℝ)) hd2 (fun h => hz h.1)
      obtain ⟨ve, ee, be⟩ := acc (le_refl (0 : ℝ)) (le_refl (0 : ℝ)) (fun h => hz h.1)
      rw [r2] at bc
      rw [hX0, r3] at be
      have bc' := (abs_le.1 bc).2
      have be' := (abs_le.1 be).1
      refine ⟨_, dX ea eb ec ee, ?_⟩
      nlinarith

/-- **C137** (partial) Downwards: the same bound with the layers exchanged. -/
theorem C137_not_negative_downwards_partial {p q d1 d2 mu1j mu2j mubjdt : ℝ} (hp : p < 0) (hq : q < 0) (h1 : 0 < mu1j)
    (h2 : 0 < mu2j) (hne : p ≠ -mu2j) (hb : 0 ≤ mubjdt) (hd1 : 0 ≤ d1) (hd2 : 0 < d2) :
    ∃ v, deBoerX p q d1 d2 mu1j mu2j mubjdt = .ok v ∧ -crossSlack (-q) (-p) d2 d1 mu2j mu1j mubjdt ≤ v := by
  have hS : p * mu1j + q * mu2j ≠ 0 := by nlinarith
  obtain ⟨v, e1, e2⟩ := C137_exchange hp.ne hq.ne h1 h2 hS hne (by linarith) hb hd1 hd2.le
  obtain ⟨w, e3, hw⟩ := C137_not_negative_partial (p := -q) (q := -p) (d1 := d2) (d2 := d1) (mu1j := mu2j) (mu2j := mu1j)
    (mubjdt := mubjdt) (by linarith) (by linarith) h2 h1 (fun h => hne (by linarith)) hb hd2 hd1
  rw [e2] at e3
  cases e3
  exact ⟨v, e1, hw⟩

theorem positiveError_nonneg {p q x y m1 m2 b : ℝ} (hp : 0 < p) (hq : 0 < q) (hm1 : 0 < m1) (hm2 : 0 < m2) (hb : 0 ≤ b)
    (hx : 0 ≤ x) (hy : 0 ≤ y) : 0 ≤ positiveError p q m1 m2 b x y := by
  unfold positiveError
  have h : 0 ≤ (if q < m1 then m1 ^ 2 / (q * (p * m1 + q * m2) * (m1 - q)) else 0) := by
    split_ifs with hh
    · have : 0 < m1 - q := by linarith
      positivity
    · exact le_rfl
  split_ifs <;> positivity

theorem crossSlack_nonneg {p q d1 d2 m1 m2 b : ℝ} (hp : 0 < p) (hq : 0 < q) (hm1 : 0 < m1) (hm2 : 0 < m2) (hb : 0 ≤ b)
    (hd1 : 0 ≤ d1) (hd2 : 0 ≤ d2) : 0 ≤ crossSlack p q d1 d2 m1 m2 b := by
  have h := fun {x y : ℝ} (hx : 0 ≤ x) (hy : 0 ≤ y) => positiveError_nonneg hp hq hm1 hm2 hb hx hy
  have h0 := le_refl (0 : ℝ)
  exact add_nonneg (add_nonneg (add_nonneg (h hd1 hd2) (h hd1 h0)) (h h0 hd2)) (h h0 h0)

/-- With equal coefficients there is no result. -/
theorem deBoerX_equal {p d1 d2 m1 m2 b : ℝ} (hm1 : 0 < m1) (hd1 : 0 < d1) (v : ℝ) :
    deBoerX p m1 d1 d2 m1 m2 b ≠ .ok v := by
  intro h
  unfold deBoerX at h
  obtain ⟨a, ha, -⟩ := Outcome.bind_eq_ok.1 h
  unfold deBoerV at ha
  rw [if_neg (fun h => hd1.ne' h.2.1)] at ha
  obtain ⟨r, -, ha⟩ := Outcome.bind_eq_ok.1 ha
  obtain ⟨D1, -, ha⟩ := Outcome.bind_eq_ok.1 ha
  obtain ⟨k1, -, ha⟩ := Outcome.bind_eq_ok.1 ha
  obtain ⟨t1, -, ha⟩ := Outcome.bind_eq_ok.1 ha
  obtain ⟨s, hs, ha⟩ := Outcome.bind_eq_ok.1 ha
  have hs1 : s = 1 := by
    unfold fdiv at hs
    rw [if_neg hm1.ne', div_self hm1.ne'] at hs
    simpa [finiteOr] using hs.symm
  subst hs1
  obtain ⟨D2, hD2, ha⟩ := Outcome.bind_eq_ok.1 ha
  obtain ⟨k2, -, ha⟩ := Outcome.bind_eq_ok.1 ha
  obtain ⟨t2, ht2, -⟩ := Outcome.bind_eq_ok.1 ha
  rw [sub_self, zero_mul] at hD2
  unfold deBoerD at hD2
  rw [if_neg (lt_irrefl 0), if_neg (by norm_num)] at hD2
  obtain ⟨z, -, hz⟩ := Outcome.bind_eq_ok.1 hD2
  rw [if_pos rfl] at hz
  cases hz
  simp [finiteOr] at ht2

end MathFn

namespace Multilayer

open MathFn

variable {R : Type} (pf : String → Outcome (SMap String ℝ)) (fuel : Nat) (L : Library ℝ) (c : Config ℝ R)

/-- **C141** (partial) Source in a layer below: the geometry is not below zero by more than the error of the exponential
integral at positive arguments. Equal coefficients are included. Missing: see `C137_cross_layer_violated`. -/
theorem C141_below_not_negative_partial {i j : Nat} (hij : i < j) {e s muT : ℝ}
    (hin : 0 < sinIn c) (hout : 0 < sinOut c) (hT : 0 < muT)
    (he : 0 < sampleMu pf fuel L c j e) (hsi : 0 < sampleMu pf fuel L c i s) (hsj : 0 < sampleMu pf fuel L c j s)
    (hM : ∀ k, 0 ≤ sampleMu pf fuel L c k s) (hD : ∀ k, 0 ≤ massThicknessOf c k) (hDi : 0 < massThicknessOf c i) :
    -(Real.exp (-(muT * massThicknessOf c i / sinOut c)) *
        crossSlack (sampleMu pf fuel L c j e / sinIn c) (muT / sinOut c) (massThicknessOf c i) (massThicknessOf c j)
          (sampleMu pf fuel L c i s) (sampleMu pf fuel L c j s) (opticalDepth pf fuel L c (i + 1) (j - (i + 1)) s))
      ≤ secondaryGeometry pf fuel L c i j e s muT := by
  have ha : 0 < sampleMu pf fuel L c j e / sinIn c := div_pos he hin
  have hq : 0 < muT / sinOut c := div_pos hT hout
  have hb := opticalDepth_nonneg pf fuel L c hD hM (i + 1) (j - (i + 1))
  have hs0 := crossSlack_nonneg ha hq hsi hsj hb hDi.le (hD j)
  have hE := Real.exp_pos (-(muT * massThicknessOf c i / sinOut c))
  unfold secondaryGeometry
  simp only [if_neg hij.ne, if_pos hij]
  split_ifs with hg h2
  · have := mul_nonneg hE.le hs0
    linarith
  · exfalso
    linarith
  · rw [← mul_neg]
    apply mul_le_mul_of_nonneg_left _ hE.le
    by_cases hne : muT / sinOut c = sampleMu pf fuel L c i s
    · rw [hne] at hs0 ⊢
      cases hX : deBoerX (sampleMu pf fuel L c j e / sinIn c) (sampleMu pf fuel L c i s) (massThicknessOf c i)
          (massThicknessOf c j) (sampleMu pf fuel L c i s) (sampleMu pf fuel L c j s)
          (opticalDepth pf fuel L c (i + 1) (j - (i + 1)) s) with
      | ok v => exact absurd hX (deBoerX_equal hsi hDi v)
      | _ => exact neg_nonpos.2 hs0
    · obtain ⟨v, hv, hw⟩ := C137_not_negative_partial ha hq hsi hsj hne hb hDi (hD j)
      rw [hv]
      exact hw

/-- **C141** (partial) Source in a layer above: the same, with the layers exchanged. -/
theorem C141_above_not_negative_partial {i j : Nat} (hji : j < i) {e s muT : ℝ}
    (hin : 0 < sinIn c) (hout : 0 < sinOut c) (hT : 0 < muT)
    (he : 0 < sampleMu pf fuel L c j e) (hsi : 0 < sampleMu pf fuel L c i s) (hsj : 0 < sampleMu pf fuel L c j s)
    (hM : ∀ k, 0 ≤ sampleMu pf fuel L c k s) (hD : ∀ k, 0 ≤ massThicknessOf c k) (hDj : 0 < massThicknessOf c j) :
    -(Real.exp (-(sampleMu pf fuel L c j e / sinIn c * massThicknessOf c j)) *
        crossSlack (muT / sinOut c) (nudged (sampleMu pf fuel L c j e / sinIn c) (sampleMu pf fuel L c j s))
          (massThicknessOf c j) (massThicknessOf c i) (sampleMu pf fuel L c j s) (sampleMu pf fuel L c i s)
          (opticalDepth pf fuel L c (j + 1) (i - (j + 1)) s))
      ≤ secondaryGeometry pf fuel L c i j e s muT := by
  have ha : 0 < sampleMu pf fuel L c j e / sinIn c := div_pos he hin
  have hq : 0 < muT / sinOut c := div_pos hT hout
  have hb := opticalDepth_nonneg pf fuel L c hD hM (j + 1) (i - (j + 1))
  have hn : 0 < nudged (sampleMu pf fuel L c j e / sinIn c) (sampleMu pf fuel L c j s) ∧
      nudged (sampleMu pf fuel L c j e / sinIn c) (sampleMu pf fuel L c j s) ≠ sampleMu pf fuel L c j s := by
    unfold nudged
    split_ifs with h
    · refine ⟨by positivity, fun h' => ?_⟩
      rw [h] at h'
      rw [div_eq_iff (by norm_num)] at h'
      linarith
    · exact ⟨ha, h⟩
  unfold secondaryGeometry
  simp only [if_neg hji.ne', if_neg (not_lt.2 hji.le)]
  rw [← mul_neg]
  apply mul_le_mul_of_nonneg_left _ (Real.exp_pos _).le
  obtain ⟨v, hv, hw⟩ := C137_not_negative_downwards_partial (d1 := massThicknessOf c i) (d2 := massThicknessOf c j)
    (neg_lt_zero.2 hn.1) (neg_lt_zero.2 hq) hsi hsj (fun h => hn.2 (neg_inj.1 h)) hb (hD i) hDj
  rw [hv]
  rw [neg_neg, neg_neg] at hw
  exact hw

/-- The hypotheses hold for two layers of iron, in both directions. -/
example : ∃ d M : ℝ, 0 < M ∧
    -(Real.exp (-(M * massThicknessOf (feTwo d) 0 / sinOut (feTwo d))) *
        crossSlack (M / sinIn (feTwo d)) (M / sinOut (feTwo d)) (massThicknessOf (feTwo d) 0) (massThicknessOf (feTwo d) 1)
          M M 0) ≤ secondaryGeometry feParser 1 feLibrary (feTwo d) 0 1 10 10 M ∧
    -(Real.exp (-(M / sinIn (feTwo d) * massThicknessOf (feTwo d) 0)) *
        crossSlack (M / sinOut (feTwo d)) (M / sinIn (feTwo d)) (massThicknessOf (feTwo d) 0) (massThicknessOf (feTwo d) 1)
          M M 0) ≤ secondaryGeometry feParser 1 feLibrary (feTwo d) 1 0 10 10 M := by
  obtain ⟨d, M, h1, h2, h3, h4, h5, h6, h7, h8, h9, -⟩ := feTwo_sensible
  have m0 := h4 0 (by norm_num)
  have m1 := h4 1 (by norm_num)
  refine ⟨d, M, h3, ?_, ?_⟩
  · have := C141_below_not_negative_partial feParser 1 feLibrary (feTwo d) (i := 0) (j := 1) (e := 10) (s := 10) (by norm_num)
      h1 h2 h3 (by rw [m1]; exact h3) (by rw [m0]; exact h3) (by rw [m1]; exact h3) h5 h6 h7
    rw [m0, m1] at this
    exact this
  · have := C141_above_not_negative_partial feParser 1 feLibrary (feTwo d) (i := 1) (j := 0) (e := 10) (s := 10) (by norm_num)
      h1 h2 h3 (by rw [m0]; exact h3) (by rw [m1]; exact h3) (by rw [m0]; exact h3) h5 h6 h7
    rw [m0, m1] at this
    have hn : nudged (M / sinIn (feTwo d)) M = M / sinIn (feTwo d) := if_neg h9
    rw [hn] at this
    exact this

end Multilayer

namespace MathFn

/-- The bound is small, also where the result is far from the double integral: in the case of `C137_cross_layer_violated`
(where the result is below the double integral by more than 1), after the attenuation exp(-11) of the line, it is below
one millionth. -/
example : ∃ v, deBoerX 1 11 1 3 1 1 0 = .ok v ∧ -1e-6 ≤ Real.exp (-11) * v := by
  obtain ⟨v, hv, hw⟩ := C137_not_negative_partial (p := 1) (q := 11) (d1 := 1) (d2 := 3) (mu1j := 1) (mu2j := 1)
    (mubjdt := 0) one_pos (by norm_num) one_pos one_pos (by norm_num) le_rfl one_pos (by norm_num)
  refine ⟨v, hv, ?_⟩
  have hx := mul_le_mul_of_nonneg_left hw (Real.exp_pos (-11)).le
  refine le_trans ?_ hx
  unfold crossSlack positiveError
  norm_num
  have x1 : Real.exp (-11) * Real.exp 4 ≤ 1 := by rw [← Real.exp_add, Real.exp_le_one_iff]; norm_num
  have x2 : Real.exp (-11) * Real.exp 10 ≤ 1 := by rw [← Real.exp_add, Real.exp_le_one_iff]; norm_num
  have x3 : Real.exp (-11) * Real.exp (-6) ≤ 1 := by rw [← Real.exp_add, Real.exp_le_one_iff]; norm_num
  have x4 : Real.exp (-11) ≤ 1 := by rw [Real.exp_le_one_iff]; norm_num
  nlinarith [Real.exp_pos (-11)]

end MathFn
end Fisx
