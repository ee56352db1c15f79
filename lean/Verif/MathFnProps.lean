import Verif.MathFn
import Mathlib.MeasureTheory.Integral.IntegralEqImproper
import Mathlib.Analysis.SpecialFunctions.ImproperIntegrals

/-!
# Properties of `fisx::Math`: C48 (exponential integrals), C49 (error function), C60 (de Boer integrals)
-/

namespace Fisx
namespace MathFn

/-! ### The continued fraction -/

/-- Invariant of the loop at the beginning of iteration `i`: the Lentz variables are ratios of the numerators `A`,
`A'` and denominators `B`, `B'` of two successive convergents. -/
structure Lentz (x : ℝ) (i : Nat) (b f C D A A' B B' : ℝ) : Prop where
  hb : b = x + 2 * i - 1
  hf : f = A / B
  hC : C = A / A'
  hD : D = B' / B
  A'pos : 0 < A'
  A_ge : i * A' ≤ A
  B'nonneg : 0 ≤ B'
  Bpos : 0 < B
  B_ge : i * B' ≤ B
  Gpos : 0 < A - x * B
  G_ge : i * (A' - x * B') ≤ A - x * B
  Hnonneg : 0 ≤ (1 + x) * B - A
  H_ge : i * ((1 + x) * B' - A') ≤ (1 + x) * B - A

theorem lentz_init (x : ℝ) (hx : 0 < x) : Lentz x 1 (1 + x) (1 + x) (1 + x) 0 (1 + x) 1 1 0 := by
  constructor <;> norm_num
  all_goals linarith

theorem step_pos {x : ℝ} (hx : 0 < x) {i : Nat} {u v : ℝ} (hu : 0 ≤ u)
    (h : (i : ℝ) * v ≤ u) : ((i : ℝ) + 1) * u ≤ (x + 2 * i + 1) * u - i * i * v := by
  have hi : (0 : ℝ) ≤ i := Nat.cast_nonneg i
  have h1 : (i : ℝ) * (i * v) ≤ i * u := mul_le_mul_of_nonneg_left h hi
  have h2 : 0 ≤ x * u := mul_nonneg hx.le hu
  nlinarith

theorem lentz_step {x : ℝ} (hx : 0 < x) {i : Nat} (hi : 1 ≤ i) {b f C D A A' B B' : ℝ}
    (h : Lentz x i b f C D A A' B B') :
    let b1 := b + 2
    let C1 := b1 + -((i : ℝ) * i) / C
    let D1 := 1 / (b1 + -((i : ℝ) * i) * D)
    Lentz x (i + 1) b1 (f * (C1 * D1)) C1 D1 (b1 * A - i * i * A') A (b1 * B - i * i * B') B := by
  intro b1 C1 D1
  have hip : (1 : ℝ) ≤ i := by exact_mod_cast hi
  have hApos : 0 < A := lt_of_lt_of_le (mul_pos (by linarith) h.A'pos) h.A_ge
  have hb1 : b1 = x + 2 * i + 1 := by simp only [b1, h.hb]; ring
  have sA := step_pos hx hApos.le h.A_ge
  have sB := step_pos hx h.Bpos.le h.B_ge
  have sG := step_pos hx h.Gpos.le h.G_ge
  have sH := step_pos hx h.Hnonneg h.H_ge
  rw [← hb1] at sA sB sG sH
  have hA1 : 0 < b1 * A - i * i * A' := lt_of_lt_of_le (mul_pos (by linarith) hApos) sA
  have hB1 : 0 < b1 * B - i * i * B' := lt_of_lt_of_le (mul_pos (by linarith) h.Bpos) sB
  have hG1 : 0 < b1 * (A - x * B) - i * i * (A' - x * B') :=
    lt_of_lt_of_le (mul_pos (by linarith) h.Gpos) sG
  have hH1 : 0 ≤ b1 * ((1 + x) * B - A) - i * i * ((1 + x) * B' - A') :=
    le_trans (mul_nonneg (by linarith) h.Hnonneg) sH
  have hC1 : C1 = (b1 * A - i * i * A') / A := by
    simp only [C1, h.hC]
    have := h.A'pos.ne'
    field_simp
    ring
  have hD1 : D1 = B / (b1 * B - i * i * B') := by
    simp only [D1, h.hD]
    have := h.Bpos.ne'
    rw [eq_div_iff hB1.ne']
    have e : b1 + -((i : ℝ) * i) * (B' / B) = (b1 * B - i * i * B') / B := by field_simp; ring
    rw [e, one_div, inv_div, div_mul_cancel₀ _ hB1.ne']
  refine ⟨?_, ?_, hC1, hD1, hApos, ?_, h.Bpos.le, hB1, ?_, ?_, ?_, ?_, ?_⟩
  · rw [hb1]; push_cast; ring
  · rw [hC1, hD1, h.hf]
    have := hApos.ne'; have := h.Bpos.ne'; have := hB1.ne'
    field_simp
  · push_cast; exact sA
  · push_cast; exact sB
  · calc (0 : ℝ) < _ := hG1
      _ = _ := by ring
  · push_cast
    calc ((i : ℝ) + 1) * (A - x * B) ≤ _ := sG
      _ = _ := by ring
  · calc (0 : ℝ) ≤ _ := hH1
      _ = _ := by ring
  · push_cast
    calc ((i : ℝ) + 1) * ((1 + x) * B - A) ≤ _ := sH
      _ = _ := by ring

theorem lentz_bounds {x : ℝ} {i : Nat} {b f C D A A' B B' : ℝ}
    (h : Lentz x i b f C D A A' B B') : x < f ∧ f ≤ 1 + x := by
  rw [h.hf]
  constructor
  · rw [lt_div_iff₀ h.Bpos]; linarith [h.Gpos]
  · rw [div_le_iff₀ h.Bpos]; linarith [h.Hnonneg]

theorem fallback_bounds {x : ℝ} (hx : 0 < x) : 1 / (x + 1) ≤ lentzFallback x ∧ lentzFallback x ≤ 1 / x := by
  have h1 : Real.log (1 + 2 / x) ≤ 2 / x := by
    have := Real.log_le_sub_one_of_pos (show 0 < 1 + 2 / x by positivity)
    linarith
  have h2 : Real.log (1 + 1 / x) ≤ 1 / x := by
    have := Real.log_le_sub_one_of_pos (show 0 < 1 + 1 / x by positivity)
    linarith
  have h3 : 2 / (x + 1) ≤ Real.log (1 + 2 / x) := by
    have := Real.le_log_one_add_of_nonneg (show 0 ≤ 2 / x by positivity)
    refine le_trans (le_of_eq ?_) this
    field_simp
    ring
  have h4 : 1 / (x + 1) ≤ Real.log (1 + 1 / x) := by
    have := Real.one_sub_inv_le_log_of_pos (show 0 < 1 + 1 / x by positivity)
    refine le_trans (le_of_eq ?_) this
    field_simp
    ring
  have e1 : (2 : ℝ) / x = 2 * (1 / x) := by ring
  have e2 : (2 : ℝ) / (x + 1) = 2 * (1 / (x + 1)) := by ring
  unfold lentzFallback
  constructor <;> linarith

theorem lentzLoop_bounds {x : ℝ} (hx : 0 < x) (eps : ℝ) (n : Nat) :
    ∀ (i : Nat), 1 ≤ i → ∀ b f C D A A' B B' : ℝ, Lentz x i b f C D A A' B B' →
      1 / (x + 1) ≤ lentzLoop x eps i n b f C D ∧ lentzLoop x eps i n b f C D ≤ 1 / x := by
  induction n with
  | zero => intro i hi b f C D A A' B B' h; exact fallback_bounds hx
  | succ n ih =>
    intro i hi b f C D A A' B B' h
    have hs := lentz_step hx hi h
    unfold lentzLoop
    simp only
    split
    · obtain ⟨b1, b2⟩ := lentz_bounds hs
      constructor
      · apply one_div_le_one_div_of_le
        · linarith
        · linarith
      · apply one_div_le_one_div_of_le hx b1.le
    · exact ih (i + 1) (by omega) _ _ _ _ _ _ _ _ hs

/-- The denominators of the algorithm at iteration `i`, as the loop computes them. -/
theorem lentz_denominators {x : ℝ} (hx : 0 < x) {i : Nat} (hi : 1 ≤ i) {b f C D A A' B B' : ℝ}
    (h : Lentz x i b f C D A A' B B') : 0 < C ∧ 0 < (b + 2) + -((i : ℝ) * i) * D := by
  have hip : (1 : ℝ) ≤ i := by exact_mod_cast hi
  have hApos : 0 < A := lt_of_lt_of_le (mul_pos (by linarith) h.A'pos) h.A_ge
  refine ⟨by rw [h.hC]; exact div_pos hApos h.A'pos, ?_⟩
  have sB := step_pos hx h.Bpos.le h.B_ge
  have hB1 : 0 < (x + 2 * i + 1) * B - i * i * B' := lt_of_lt_of_le (mul_pos (by linarith) h.Bpos) sB
  have : (b + 2) + -((i : ℝ) * i) * D = ((x + 2 * i + 1) * B - i * i * B') / B := by
    rw [h.hD, h.hb]
    have := h.Bpos.ne'
    field_simp
    ring
  rw [this]
  exact div_pos hB1 h.Bpos

/-! ## C48 -/

/-- **C48** For x > 1, whatever the tolerance and the number of iterations, the continued fraction gives a value
between 1/(x+1) and 1/x, the bounds of exp(x) E1(x) of Abramowitz and Stegun 5.1.19. -/
theorem C48_continued_fraction_bounds {x : ℝ} (hx : 1 < x) (eps : ℝ) (maxIter : Nat) :
    ∃ d, deBoerCF x eps maxIter = .ok d ∧ 1 / (x + 1) ≤ d ∧ d ≤ 1 / x := by
  refine ⟨_, if_neg (not_le.2 hx), ?_⟩
  exact lentzLoop_bounds (by linarith) eps _ 1 (le_refl _) _ _ _ _ _ _ _ _ (lentz_init x (by linarith))

theorem as53_pos {x : ℝ} (h0 : 0 < x) (h1 : x ≤ 1) : 0 < as53 x - Real.log x := by
  have hl : Real.log x ≤ x - 1 := Real.log_le_sub_one_of_pos h0
  have h2 : x ^ 2 ≤ 1 := pow_le_one₀ h0.le h1
  have h4 : x ^ 4 ≤ 1 := pow_le_one₀ h0.le h1
  have h3 : 0 ≤ x ^ 3 := by positivity
  have h5 : 0 ≤ x ^ 5 := by positivity
  have e : as53 x = 0.00107857 * x ^ 5 - 0.00976004 * x ^ 4 + 0.05519968 * x ^ 3 - 0.24991055 * x ^ 2
      + 0.99999193 * x - 0.57721566 := by unfold as53; ring
  rw [e]
  nlinarith

/-- **C48** E1 returns a positive number for every positive argument other than 1. Missing: the argument 1,
see `C96_E1_one_violated`. -/
theorem C48_E1_defined {x : ℝ} (h0 : 0 < x) (h1 : x ≠ 1) : ∃ v, E1 x = .ok v ∧ 0 < v := by
  unfold E1
  rw [if_neg h0.ne', if_neg (not_lt.2 h0.le)]
  rcases lt_or_gt_of_ne h1 with h | h
  · rw [if_pos h]
    refine ⟨as53 x - Real.log x, ?_, as53_pos h0 h.le⟩
    simp [AS_5_1_53, not_lt.2 h.le]
  · rw [if_neg (not_lt.2 h.le)]
    obtain ⟨d, hd, hlo, _⟩ := C48_continued_fraction_bounds h 1.0e-7 100
    refine ⟨Real.exp (-x) * d, by rw [hd]; rfl, ?_⟩
    have : 0 < 1 / (x + 1) := by positivity
    exact mul_pos (Real.exp_pos _) (lt_of_lt_of_le this hlo)

/-- **C96** (violation) E1(1) throws runtime_error. -/
theorem C96_E1_one_violated : E1 1 = .throw .runtimeError := by
  unfold E1 deBoerCF
  norm_num

/-- **C96** (violation) and with it E_n(1) for every order. -/
theorem C96_En_one_violated (n : Int) (hn : 1 ≤ n) : En n 1 = .throw .runtimeError := by
  have key : ∀ k, enAux k 1 = .throw .runtimeError := by
    intro k
    induction k with
    | zero => exact C96_E1_one_violated
    | succ k ih => unfold enAux; rw [ih]; norm_num
  unfold En
  rw [if_neg (by omega)]
  exact key _

/-- **C48** E_n is defined for every order n ≥ 1 and positive argument other than 1, and it satisfies the
recurrence n E_{n+1}(x) = exp(-x) - x E_n(x). -/
theorem C48_En_recurrence {x : ℝ} (h0 : 0 < x) (h1 : x ≠ 1) (n : Int) (hn : 1 ≤ n) :
    ∃ v w, En n x = .ok v ∧ En (n + 1) x = .ok w ∧ n * w = Real.exp (-x) - x * v := by
  have key : ∀ k, ∃ v, enAux k x = .ok v := by
    intro k
    induction k with
    | zero => obtain ⟨v, hv, _⟩ := C48_E1_defined h0 h1; exact ⟨v, hv⟩
    | succ k ih =>
      obtain ⟨v, hv⟩ := ih
      refine ⟨(Real.exp (-x) - x * v) / ((k : ℝ) + 1), ?_⟩
      unfold enAux
      rw [if_neg h0.ne', hv]
      rfl
  obtain ⟨v, hv⟩ := key (n - 1).toNat
  have e : (n + 1 - 1).toNat = (n - 1).toNat + 1 := by omega
  refine ⟨v, (Real.exp (-x) - x * v) / (((n - 1).toNat : ℝ) + 1), ?_, ?_, ?_⟩
  · unfold En; rw [if_neg (by omega)]; exact hv
  · unfold En; rw [if_neg (by omega), e]
    unfold enAux
    rw [if_neg h0.ne', hv]
    rfl
  · have : (((n - 1).toNat : ℝ) + 1) = (n : ℝ) := by
      have h : (((n - 1).toNat : Int) : ℝ) = ((n - 1 : Int) : ℝ) := by
        rw [Int.toNat_of_nonneg (by omega)]
      push_cast at h
      rw [h]; ring
    rw [this]
    have hn0 : (n : ℝ) ≠ 0 := by
      have : n ≠ 0 := by omega
      exact_mod_cast this
    field_simp

/-- **C48** Orders below 1 and E1 at 0 are rejected; E_n(0) = 1/(n-1). -/
theorem C48_domain (n : Int) (x : ℝ) :
    (n < 1 → En n x = .throw .runtimeError) ∧ E1 0 = .throw .invalidArgument ∧
    (2 ≤ n → ∃ v, En n 0 = .ok v ∧ v * (n - 1) = 1) := by
  refine ⟨fun h => if_pos h, if_pos rfl, fun h => ?_⟩
  unfold En
  rw [if_neg (by omega)]
  obtain ⟨k, hk⟩ : ∃ k : Nat, (n - 1).toNat = k + 1 := ⟨(n - 2).toNat, by omega⟩
  rw [hk]
  refine ⟨1 / ((k : ℝ) + 1), by unfold enAux; rw [if_pos rfl], ?_⟩
  have : ((k : ℝ) + 1) = (n : ℝ) - 1 := by
    have h : ((k : Int) : ℝ) = ((n - 2 : Int) : ℝ) := by congr 1; omega
    push_cast at h
    rw [h]; ring
  rw [← this]
  have : (k : ℝ) + 1 ≠ 0 := by positivity
  field_simp

/-! ### Comparison with the exponential integral -/

open MeasureTheory Set Filter Topology in
/-- The exponential integral of order 1: the integral of exp(-t)/t from x to infinity. -/
noncomputable def trueE1 (x : ℝ) : ℝ := ∫ t in Set.Ioi x, Real.exp (-t) / t

open MeasureTheory Set Filter Topology in
theorem integrable_exp_div {x : ℝ} (hx : 0 < x) : IntegrableOn (fun t => Real.exp (-t) / t) (Ioi x) := by
  have h1 : IntegrableOn (fun t : ℝ => Real.exp (-t) / x) (Ioi x) := by
    have := (integrableOn_exp_neg_Ioi x).div_const x
    exact this
  refine Integrable.mono' h1 ?_ ?_
  · apply Measurable.aestronglyMeasurable
    fun_prop
  · filter_upwards [ae_restrict_mem measurableSet_Ioi] with t ht
    have ht' : x < t := ht
    have ht0 : 0 < t := hx.trans ht'
    rw [Real.norm_of_nonneg (by positivity)]
    exact div_le_div_of_nonneg_left (Real.exp_pos _).le hx ht'.le

open MeasureTheory Set Filter Topology in
/-- Abramowitz and Stegun 5.1.19. -/
theorem trueE1_bounds {x : ℝ} (hx : 0 < x) :
    Real.exp (-x) * (1 / (x + 1)) ≤ trueE1 x ∧ trueE1 x ≤ Real.exp (-x) * (1 / x) := by
  constructor
  · -- exp(-t)/(t+1) has derivative -exp(-t) (t+2)/(t+1)^2, above -exp(-t)/t
    have hderiv : ∀ t ∈ Ici x, HasDerivAt (fun t => -(Real.exp (-t) / (t + 1)))
        (Real.exp (-t) * ((t + 2) / (t + 1) ^ 2)) t := by
      intro t ht
      have ht0 : 0 < t := lt_of_lt_of_le hx ht
      have h1 : HasDerivAt (fun t : ℝ => Real.exp (-t)) (-Real.exp (-t)) t := by
        simpa using (hasDerivAt_neg t).exp
      have h2 : HasDerivAt (fun t : ℝ => t + 1) 1 t := (hasDerivAt_id t).add_const 1
      have h3 := (h1.div h2 (by positivity)).neg
      refine h3.congr_deriv ?_
      have : t + 1 ≠ 0 := by positivity
      field_simp
      ring
    have hpos : ∀ t ∈ Ioi x, 0 ≤ Real.exp (-t) * ((t + 2) / (t + 1) ^ 2) := by
      intro t ht
      have ht0 : 0 < t := hx.trans ht
      positivity
    have hlim : Tendsto (fun t : ℝ => -(Real.exp (-t) / (t + 1))) atTop (𝓝 0) := by
      have h1 : Tendsto (fun t : ℝ => Real.exp (-t)) atTop (𝓝 0) :=
        Real.tendsto_exp_neg_atTop_nhds_zero
      have h2 : Tendsto (fun t : ℝ => (t + 1)⁻¹) atTop (𝓝 0) :=
        tendsto_inv_atTop_zero.comp (tendsto_atTop_add_const_right _ 1 tendsto_id)
      have := (h1.mul h2).neg
      simpa [div_eq_mul_inv] using this
    have hint := integrableOn_Ioi_deriv_of_nonneg' hderiv hpos hlim
    have hval := integral_Ioi_of_hasDerivAt_of_tendsto' hderiv hint hlim
    have hle : (∫ t in Ioi x, Real.exp (-t) * ((t + 2) / (t + 1) ^ 2)) ≤ trueE1 x := by
      unfold trueE1
      apply setIntegral_mono_on hint (integrable_exp_div hx) measurableSet_Ioi
      intro t ht
      have ht0 : 0 < t := hx.trans ht
      rw [div_eq_mul_one_div (Real.exp (-t)) t]
      apply mul_le_mul_of_nonneg_left _ (Real.exp_pos _).le
      rw [div_le_div_iff₀ (by positivity) ht0]
      nlinarith
    rw [hval] at hle
    calc Real.exp (-x) * (1 / (x + 1)) = 0 - -(Real.exp (-x) / (x + 1)) := by ring
      _ ≤ _ := hle
  · have h1 : IntegrableOn (fun t : ℝ => Real.exp (-t) / x) (Ioi x) :=
      (integrableOn_exp_neg_Ioi x).div_const x
    have hle : trueE1 x ≤ ∫ t in Ioi x, Real.exp (-t) / x := by
      unfold trueE1
      apply setIntegral_mono_on (integrable_exp_div hx) h1 measurableSet_Ioi
      intro t ht
      have ht' : x < t := ht
      exact div_le_div_of_nonneg_left (Real.exp_pos _).le hx ht'.le
    refine le_trans hle (le_of_eq ?_)
    rw [integral_div, integral_exp_neg_Ioi]
    ring

/-- **C48** For x > 1 the value returned by E1 and the exponential integral lie in the same interval, hence differ by
at most exp(-x)/(x (x+1)). -/
theorem C48_E1_accuracy {x : ℝ} (hx : 1 < x) : ∃ v, E1 x = .ok v ∧
    Real.exp (-x) / (x + 1) ≤ v ∧ v ≤ Real.exp (-x) / x ∧
    |v - trueE1 x| ≤ Real.exp (-x) / (x * (x + 1)) := by
  obtain ⟨d, hd, hlo, hhi⟩ := C48_continued_fraction_bounds hx 1.0e-7 100
  have hx0 : 0 < x := by linarith
  refine ⟨Real.exp (-x) * d, ?_, ?_, ?_, ?_⟩
  · unfold E1
    rw [if_neg hx0.ne', if_neg (not_lt.2 hx0.le), if_neg (not_lt.2 hx.le), hd]
    rfl
  · rw [div_eq_mul_one_div]; exact mul_le_mul_of_nonneg_left hlo (Real.exp_pos _).le
  · rw [div_eq_mul_one_div]; exact mul_le_mul_of_nonneg_left hhi (Real.exp_pos _).le
  · obtain ⟨t1, t2⟩ := trueE1_bounds hx0
    have a1 := mul_le_mul_of_nonneg_left hlo (Real.exp_pos (-x)).le
    have a2 := mul_le_mul_of_nonneg_left hhi (Real.exp_pos (-x)).le
    have e : Real.exp (-x) / (x * (x + 1)) = Real.exp (-x) * (1 / x) - Real.exp (-x) * (1 / (x + 1)) := by
      have : x + 1 ≠ 0 := by positivity
      field_simp
      ring
    rw [e, abs_le]
    constructor <;> linarith

/-- The variables (b, f, C, D) at the beginning of iteration n + 1 of the loop of fisx_math.cpp:529-548. -/
noncomputable def lentzState (x : ℝ) : Nat → ℝ × ℝ × ℝ × ℝ
  | 0 => (1 + x, 1 + x, 1 + x, 0)
  | n + 1 =>
    let (b, f, C, D) := lentzState x n
    let b1 := b + 2
    let a : ℝ := -(((n + 1 : Nat) : ℝ) * ((n + 1 : Nat) : ℝ))
    let C1 := b1 + a / C
    let D1 := 1 / (b1 + a * D)
    (b1, f * (C1 * D1), C1, D1)

/-- These are the states of the loop: it goes on from one to the next, or returns. -/
theorem lentzLoop_state (x eps : ℝ) (n m : Nat) :
    let s := lentzState x n
    let s' := lentzState x (n + 1)
    lentzLoop x eps (n + 1) (m + 1) s.1 s.2.1 s.2.2.1 s.2.2.2 =
      if |s'.2.2.1 * s'.2.2.2 - 1| < eps then 1 / s'.2.1
      else lentzLoop x eps (n + 2) m s'.1 s'.2.1 s'.2.2.1 s'.2.2.2 := by
  intro s s'
  rw [lentzLoop]
  rfl

/-- **C48** The comment "we never get 0 denominator" of the continued fraction is right: the two numbers the loop
divides by (C, and the new D before its inversion) are positive, at every iteration. -/
theorem C48_no_zero_denominator {x : ℝ} (hx : 0 < x) (n : Nat) :
    0 < (lentzState x n).2.2.1 ∧
    0 < ((lentzState x n).1 + 2) + -(((n + 1 : Nat) : ℝ) * ((n + 1 : Nat) : ℝ)) * (lentzState x n).2.2.2 := by
  have key : ∀ n, ∃ A A' B B' : ℝ, Lentz x (n + 1) (lentzState x n).1 (lentzState x n).2.1
      (lentzState x n).2.2.1 (lentzState x n).2.2.2 A A' B B' := by
    intro n
    induction n with
    | zero => exact ⟨_, _, _, _, lentz_init x hx⟩
    | succ n ih =>
      obtain ⟨A, A', B, B', h⟩ := ih
      exact ⟨_, _, _, _, lentz_step hx (by omega) h⟩
  obtain ⟨A, A', B, B', h⟩ := key n
  exact lentz_denominators hx (by omega) h

/-- The hypotheses of the theorems on E1 and En are met. -/
example : ∃ v, E1 (1 / 2) = .ok v ∧ 0 < v := C48_E1_defined (by norm_num) (by norm_num)
example : ∃ v w, En 3 2 = .ok v ∧ En 4 2 = .ok w ∧ ((3 : Int) : ℝ) * w = Real.exp (-2) - 2 * v :=
  C48_En_recurrence (by norm_num) (by norm_num) 3 (by norm_num)

/-! ## C49 -/

theorem erfPoly_neg {t : ℝ} (h0 : 0 ≤ t) (h1 : t ≤ 1) : erfPoly t < 0 := by
  have hs : 0 ≤ 1 - t := by linarith
  -- Bernstein form of (P(1) - P(t)) / (1 - t)
  have e : erfPoly t = -33 / 100000000 - (1 - t) * (12655119/10000000 * (1 - t) ^ 8
      + 519479171/50000000 * t * (1 - t) ^ 7 + 232400921/6250000 * t ^ 2 * (1 - t) ^ 6
      + 3779345559/50000000 * t ^ 3 * (1 - t) ^ 5 + 952028327/10000000 * t ^ 4 * (1 - t) ^ 4
      + 7556044533/100000000 * t ^ 5 * (1 - t) ^ 3 + 1857769811/50000000 * t ^ 6 * (1 - t) ^ 2
      + 1035684731/100000000 * t ^ 7 * (1 - t) + 125677183/100000000 * t ^ 8) := by
    unfold erfPoly; ring
  rw [e]
  have : 0 ≤ (1 - t) * (12655119/10000000 * (1 - t) ^ 8
      + 519479171/50000000 * t * (1 - t) ^ 7 + 232400921/6250000 * t ^ 2 * (1 - t) ^ 6
      + 3779345559/50000000 * t ^ 3 * (1 - t) ^ 5 + 952028327/10000000 * t ^ 4 * (1 - t) ^ 4
      + 7556044533/100000000 * t ^ 5 * (1 - t) ^ 3 + 1857769811/50000000 * t ^ 6 * (1 - t) ^ 2
      + 1035684731/100000000 * t ^ 7 * (1 - t) + 125677183/100000000 * t ^ 8) := by positivity
  linarith

theorem erfR_bounds (x : ℝ) : 0 < erfR x ∧ erfR x < 1 := by
  have hz : 0 ≤ |x| := abs_nonneg x
  have hd : 0 < 1 + 0.5 * |x| := by positivity
  have ht : 0 < 1 / (1 + 0.5 * |x|) := by positivity
  have ht1 : 1 / (1 + 0.5 * |x|) ≤ 1 := by
    rw [div_le_one hd]
    have : 0 ≤ 0.5 * |x| := by positivity
    linarith
  unfold erfR
  refine ⟨mul_pos ht (Real.exp_pos _), ?_⟩
  have hp := erfPoly_neg ht.le ht1
  have he : Real.exp (-|x| * |x| + erfPoly (1 / (1 + 0.5 * |x|))) < 1 := by
    rw [Real.exp_lt_one_iff]
    nlinarith
  calc _ ≤ 1 * Real.exp (-|x| * |x| + erfPoly (1 / (1 + 0.5 * |x|))) :=
        mul_le_mul_of_nonneg_right ht1 (Real.exp_pos _).le
    _ < 1 := by rw [one_mul]; exact he

/-- **C49** erf and erfc are complementary. -/
theorem C49_complementary (x : ℝ) : erf x + erfc x = 1 := by
  unfold erf erfc
  ring

/-- **C49** erf is between -1 and 1 and has the sign of its argument; erfc is between 0 and 2. -/
theorem C49_range (x : ℝ) : -1 < erf x ∧ erf x < 1 ∧ 0 < erfc x ∧ erfc x < 2 ∧
    (0 < x → 0 < erf x) ∧ (x < 0 → erf x < 0) := by
  obtain ⟨h0, h1⟩ := erfR_bounds x
  unfold erf erfc
  split
  · rename_i h
    refine ⟨by linarith, by linarith, by linarith, by linarith, fun hx => by linarith, fun _ => by linarith⟩
  · rename_i h
    refine ⟨by linarith, by linarith, by linarith, by linarith, fun _ => by linarith, fun hx => absurd hx h⟩

/-- **C49** erf is odd, and erfc(-x) = 2 - erfc(x), for every argument other than 0. Missing: x = 0, see
`C97_zero_violated`. -/
theorem C49_odd {x : ℝ} (hx : x ≠ 0) : erf (-x) = - erf x ∧ erfc (-x) = 2 - erfc x := by
  have hr : erfR (-x) = erfR x := by unfold erfR; rw [abs_neg]
  unfold erf erfc
  rw [hr]
  rcases lt_or_gt_of_ne hx with h | h
  · rw [if_neg (by linarith), if_pos h]
    constructor <;> ring
  · rw [if_pos (by linarith), if_neg (by linarith)]
    constructor <;> ring

/-- **C97** (violation) erf(0) is not 0, so that erf(-0) = -erf(0) is false. -/
theorem C97_zero_violated : 0 < erf 0 ∧ erf (-0) ≠ - erf 0 := by
  have h : 0 < erf 0 := by
    have := (erfR_bounds 0).2
    unfold erf
    rw [if_neg (lt_irrefl _)]
    linarith
  refine ⟨h, ?_⟩
  rw [neg_zero]
  linarith

/-- The error made at 0 is below 4e-7. -/
theorem C97_zero_small_partial : erf 0 < 0.0000004 := by
  have e : erfR 0 = Real.exp (-33 / 100000000) := by
    unfold erfR erfPoly
    norm_num
  unfold erf
  rw [if_neg (lt_irrefl _), e]
  have := Real.add_one_le_exp (-33 / 100000000 : ℝ)
  linarith

/-! ## C60: the integrals of de Boer -/

/-- **C60** The function D = exp(x) E1(x) used for the secondary excitation has a finite value everywhere but at 0,
and a positive one for positive arguments. -/
theorem C60_deBoerD (x : ℝ) : (x ≠ 0 → ∃ v, deBoerD x = .ok (some v) ∧ (0 < x → 0 < v)) ∧
    deBoerD 0 = .ok none := by
  constructor
  · intro hx
    unfold deBoerD
    rcases lt_or_gt_of_ne hx with h | h
    · rw [if_pos h]
      refine ⟨Real.exp x * e1Series x, ?_, fun h' => absurd h (not_lt.2 h'.le)⟩
      simp [E1, hx, h]
    · rw [if_neg (not_lt.2 h.le)]
      by_cases h1 : x > 1
      · rw [if_pos h1]
        obtain ⟨d, hd, hlo, _⟩ := C48_continued_fraction_bounds h1 1.0e-7 100
        refine ⟨d, by rw [hd]; rfl, fun _ => ?_⟩
        exact lt_of_lt_of_le (by positivity) hlo
      · rw [if_neg h1]
        refine ⟨Real.exp x * (as53 x - Real.log x), ?_, fun _ => ?_⟩
        · simp [AS_5_1_53, h1, hx]
        · exact mul_pos (Real.exp_pos _) (as53_pos h (not_lt.1 h1))
  · norm_num [deBoerD, AS_5_1_53]

/-- **C60** deBoerL0 rejects coefficients that are not positive and never returns a negative number; thick and very
thin targets never fail. -/
theorem C60_deBoerL0 (mu1 mu2 muj density thickness : ℝ) :
    (mu1 ≤ 0 ∨ mu2 ≤ 0 ∨ muj ≤ 0 → deBoerL0 mu1 mu2 muj density thickness = .throw .runtimeError) ∧
    (∀ v, deBoerL0 mu1 mu2 muj density thickness = .ok v → 0 ≤ v) ∧
    (0 < mu1 → 0 < mu2 → 0 < muj →
      ((mu1 + mu2) * (thickness * density) > 10 ∨ (mu1 + mu2) * (thickness * density) < 0.01) →
      ∃ v, deBoerL0 mu1 mu2 muj density thickness = .ok v) ∧
    (deBoerL0 mu1 mu2 muj density thickness).isUB = false := by
  have hchk : ∀ r v, checkResult r = .ok v → 0 ≤ v := by
    intro r v h
    unfold checkResult at h
    split at h
    · cases h
    · split at h
      · cases h
      · rename_i h'
        cases h
        exact not_lt.1 h'
  have hD : ∀ x, ∃ o, deBoerD x = .ok o := by
    intro x
    by_cases hx : x = 0
    · subst hx; exact ⟨_, (C60_deBoerD 0).2⟩
    · obtain ⟨v, hv, _⟩ := (C60_deBoerD x).1 hx; exact ⟨_, hv⟩
  refine ⟨fun h => if_pos h, ?_, ?_, ?_⟩
  · intro v h
    unfold deBoerL0 at h
    split at h
    · cases h
    · rename_i hpos
      push Not at hpos
      obtain ⟨p1, p2, p3⟩ := hpos
      simp only at h
      split at h
      · cases h
        have : 0 ≤ Real.log (1 + mu1 / muj) := Real.log_nonneg (by
          have : 0 ≤ mu1 / muj := by positivity
          linarith)
        positivity
      · split at h
        · cases h; exact le_refl _
        · simp only [Outcome.bind_eq_ok] at h
          obtain ⟨_, -, _, -, _, -, h⟩ := h
          exact hchk _ _ h
  · intro p1 p2 p3 hd
    unfold deBoerL0
    rw [if_neg (by push Not; exact ⟨p1, p2, p3⟩)]
    simp only
    rcases hd with hd | hd
    · rw [if_pos hd]; exact ⟨_, rfl⟩
    · rw [if_neg (by norm_num at hd ⊢; linarith), if_pos hd]; exact ⟨_, rfl⟩
  · unfold deBoerL0
    simp only
    split
    · rfl
    · split
      · rfl
      · split
        · rfl
        · obtain ⟨o1, h1⟩ := hD ((muj - mu2) * (thickness * density))
          obtain ⟨o2, h2⟩ := hD (muj * (thickness * density))
          obtain ⟨o3, h3⟩ := hD ((muj + mu1) * (thickness * density))
          rw [h1, h2, h3]
          simp only [Outcome.ok_bind]
          unfold checkResult
          split
          · rfl
          · split <;> rfl

/-- **C60** (violation) The integral has a limit when the attenuation at the emitted and exciting lines coincide, but
deBoerL0 throws there, for all targets of intermediate thickness. -/
theorem C60_equal_coefficients_violated (mu1 mu density thickness : ℝ) (h1 : 0 < mu1) (h2 : 0 < mu)
    (hd : 0.01 ≤ (mu1 + mu) * (thickness * density)) (hd' : (mu1 + mu) * (thickness * density) ≤ 10) :
    deBoerL0 mu1 mu mu density thickness = .throw .runtimeError := by
  have hD : ∀ x, ∃ o, deBoerD x = .ok o := by
    intro x
    by_cases hx : x = 0
    · subst hx; exact ⟨_, (C60_deBoerD 0).2⟩
    · obtain ⟨v, hv, _⟩ := (C60_deBoerD x).1 hx; exact ⟨_, hv⟩
  unfold deBoerL0
  rw [if_neg (by push Not; exact ⟨h1, h2, h2⟩)]
  simp only
  rw [if_neg (not_lt.2 hd'), if_neg (not_lt.2 hd), sub_self, zero_mul, (C60_deBoerD 0).2]
  obtain ⟨o2, h2⟩ := hD (mu * (thickness * density))
  obtain ⟨o3, h3⟩ := hD ((mu + mu1) * (thickness * density))
  rw [h2, h3]
  rfl

/-- The hypotheses of the violation are met by a target of 1 g/cm2. -/
example : deBoerL0 1 1 1 1 1 = .throw .runtimeError :=
  C60_equal_coefficients_violated 1 1 1 1 (by norm_num) (by norm_num) (by norm_num) (by norm_num)

/-- **C60** A layer of null thickness neither receives nor causes secondary excitation. -/
theorem C60_deBoerX_null (p q d mu1j mu2j mubjdt : ℝ) :
    (∀ v, deBoerX p q 0 d mu1j mu2j mubjdt = .ok v → v = 0) ∧
    (∀ v, deBoerX p q d 0 mu1j mu2j mubjdt = .ok v → v = 0) := by
  constructor
  · intro v h
    unfold deBoerX at h
    simp only [Outcome.bind_eq_ok] at h
    obtain ⟨a, ha, b, hb, c, hc, e, he, h⟩ := h
    rw [ha] at hc; rw [hb] at he
    cases hc; cases he
    cases h
    ring
  · intro v h
    unfold deBoerX at h
    simp only [Outcome.bind_eq_ok] at h
    obtain ⟨a, ha, b, hb, c, hc, e, he, h⟩ := h
    rw [ha] at hb; rw [hc] at he
    cases hb; cases he
    cases h
    ring

/-- **C60** Two layers separated by an absorbing one: deBoerX is defined for positive parameters with q different
from the coefficient of the fluorescent layer. -/
theorem C60_deBoerX_defined {p q d1 d2 mu1j mu2j mubjdt : ℝ} (hp : 0 < p) (hq : 0 < q) (h1 : 0 < mu1j)
    (h2 : 0 < mu2j) (hd1 : 0 ≤ d1) (hd2 : 0 ≤ d2) (hb : 0 ≤ mubjdt) (hne : q ≠ mu1j) :
    ∃ v, deBoerX p q d1 d2 mu1j mu2j mubjdt = .ok v := by
  have hden : p * mu1j + q * mu2j ≠ 0 := by positivity
  have hs : 1 - q / mu1j ≠ 0 := by
    intro h
    have : q / mu1j = 1 := by linarith
    rw [div_eq_one_iff_eq h1.ne'] at this
    exact hne this
  have key : ∀ d1 d2 : ℝ, 0 ≤ d1 → 0 ≤ d2 → ∃ v, deBoerV p q d1 d2 mu1j mu2j mubjdt = .ok v := by
    intro d1 d2 hd1 hd2
    unfold deBoerV
    split
    · have a1 : ¬ |1 - q / mu1j| ≤ 0 := by rw [not_le, abs_pos]; exact hs
      have hb : 0 < 1 + p / mu2j := by positivity
      have a2 : ¬ |1 + p / mu2j| ≤ 0 := by rw [not_le, abs_pos]; exact hb.ne'
      refine ⟨-(mu2j / p * Real.log |1 + p / mu2j| + mu1j / q * Real.log |1 - q / mu1j|)
        / (p * mu1j + q * mu2j), ?_⟩
      unfold deBoerV00 fdiv flog
      simp only [h1.ne', h2.ne', hp.ne', hq.ne', hden, a1, a2, if_false, Option.bind_eq_bind, Option.bind_some]
      rfl
    · rename_i hnz
      have hh : mu1j * d1 + mubjdt + mu2j * d2 ≠ 0 := by
        intro h
        have b1 : 0 ≤ mu1j * d1 := by positivity
        have b2 : 0 ≤ mu2j * d2 := by positivity
        apply hnz
        refine ⟨by linarith, ?_, ?_⟩
        · have : mu1j * d1 = 0 := by linarith
          simpa [h1.ne'] using this
        · have : mu2j * d2 = 0 := by linarith
          simpa [h2.ne'] using this
      have hr : (1 + p / mu2j) ≠ 0 := by positivity
      obtain ⟨D1, e1, -⟩ := (C60_deBoerD _).1 (mul_ne_zero hr hh)
      obtain ⟨D2, e2, -⟩ := (C60_deBoerD _).1 (mul_ne_zero hs hh)
      obtain ⟨D3, e3, -⟩ := (C60_deBoerD _).1 hh
      have n1 : p * (p * mu1j + q * mu2j) ≠ 0 := mul_ne_zero hp.ne' hden
      have n2 : q * (p * mu1j + q * mu2j) ≠ 0 := mul_ne_zero hq.ne' hden
      have n3 : p * q ≠ 0 := mul_ne_zero hp.ne' hq.ne'
      simp only [fdiv, h1.ne', h2.ne', n1, n2, n3, if_false, finiteOr, Outcome.ok_bind, e1, e2, e3,
        Option.map_some, Option.bind_some, Outcome.pure_eq]
      exact ⟨_, rfl⟩
  obtain ⟨a, ha⟩ := key d1 d2 hd1 hd2
  obtain ⟨b, hb'⟩ := key d1 0 hd1 (le_refl _)
  obtain ⟨c, hc⟩ := key 0 d2 (le_refl _) hd2
  obtain ⟨e, he⟩ := key 0 0 (le_refl _) (le_refl _)
  exact ⟨a - b - c + e, by unfold deBoerX; rw [ha, hb', hc, he]; rfl⟩

example : ∃ v, deBoerX 1 2 (1 / 2) 1 3 4 0 = .ok v :=
  C60_deBoerX_defined (by norm_num) (by norm_num) (by norm_num) (by norm_num) (by norm_num) (by norm_num)
    (by norm_num) (by norm_num)

/-! ## C61 -/

/-- **C61** The peak width is at least the electronic noise and does not decrease with the energy. -/
theorem C61_fwhm {noise fano q e1 e2 : ℝ} (hf : 0 ≤ fano) (hq : 0 ≤ q) (h1 : 0 ≤ e1) (h12 : e1 ≤ e2) :
    ∃ w1 w2, getFWHM e1 noise fano q = some w1 ∧ getFWHM e2 noise fano q = some w2 ∧ |noise| ≤ w1 ∧ w1 ≤ w2 ∧
      w1 ^ 2 = noise ^ 2 + e1 * fano * 2.3548 ^ 2 * q := by
  have hc : 0 ≤ fano * 2.3548 * 2.3548 * q := by positivity
  have p1 : 0 ≤ e1 * fano * 2.3548 * 2.3548 * q := by
    calc (0 : ℝ) ≤ e1 * (fano * 2.3548 * 2.3548 * q) := mul_nonneg h1 hc
      _ = _ := by ring
  have p12 : e1 * fano * 2.3548 * 2.3548 * q ≤ e2 * fano * 2.3548 * 2.3548 * q := by
    calc e1 * fano * 2.3548 * 2.3548 * q = e1 * (fano * 2.3548 * 2.3548 * q) := by ring
      _ ≤ e2 * (fano * 2.3548 * 2.3548 * q) := mul_le_mul_of_nonneg_right h12 hc
      _ = _ := by ring
  have hn : 0 ≤ noise * noise := mul_self_nonneg _
  refine ⟨_, _, if_neg (not_lt.2 (by linarith)), if_neg (not_lt.2 (by linarith)), ?_, ?_, ?_⟩
  · rw [← Real.sqrt_mul_self_eq_abs]
    exact Real.sqrt_le_sqrt (by linarith)
  · exact Real.sqrt_le_sqrt (by linarith)
  · rw [Real.sq_sqrt (by linarith)]; ring

example : ∃ w, getFWHM 6 (1 / 10) (1 / 10) (385 / 100000) = some w ∧ (1 : ℝ) / 10 ≤ w := by
  obtain ⟨w1, _, h1, _, h3, _⟩ := C61_fwhm (noise := 1 / 10) (fano := 1 / 10) (q := 385 / 100000) (e1 := 6) (e2 := 7)
    (by norm_num) (by norm_num) (by norm_num) (by norm_num)
  refine ⟨w1, h1, ?_⟩
  rw [abs_of_pos (by norm_num)] at h3
  exact h3

end MathFn
end Fisx
