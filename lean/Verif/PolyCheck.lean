import Mathlib.Analysis.Calculus.Deriv.Pow
import Mathlib.Analysis.Calculus.Deriv.Add
import Mathlib.Analysis.Calculus.Deriv.Mul
import Mathlib.Data.Rat.Cast.Order
import Mathlib.Tactic.Positivity
import Mathlib.Tactic.Linarith
import Mathlib.Tactic.FieldSimp
import Mathlib.Tactic.Ring

/-!
# A verified test for polynomial inequalities on an interval

A polynomial with rational coefficients is the list of its coefficients, constant term first. `PolyQ.nonneg p a b`
computes the coefficients of `p` after the substitution that maps `(a, b]` to `[0, ∞)`; when they are all
non negative, `p` is non negative on `(a, b]` (`PolyQ.nonneg_spec`). It is evaluated by the kernel.
-/

namespace Fisx
namespace PolyQ

/-- The value. -/
noncomputable def eval (p : List ℚ) (x : ℝ) : ℝ := p.foldr (fun c v => (c : ℝ) + x * v) 0

/-- Addition. -/
def add : List ℚ → List ℚ → List ℚ
  | [], q => q
  | p, [] => p
  | a :: p, b :: q => (a + b) :: add p q

/-- Multiplication with a number. -/
def scale (c : ℚ) (p : List ℚ) : List ℚ := p.map (fun a => c * a)

/-- Multiplication. -/
def mul (p q : List ℚ) : List ℚ := p.foldr (fun c r => add (scale c q) (0 :: r)) []

/-- The derivative: `(c + x p)' = p + x p'`. -/
def deriv : List ℚ → List ℚ
  | [] => []
  | _ :: p => add p (0 :: deriv p)

/-- Substitution of `a + b x`. -/
def comp (p : List ℚ) (a b : ℚ) : List ℚ := p.foldr (fun c r => add [c] (add (scale a r) (0 :: scale b r))) []

/-- The coefficients of the polynomial seen on `(a, b]` as `[0, ∞)`. -/
def seen (p : List ℚ) (a b : ℚ) : List ℚ := comp (comp p a (b - a)).reverse 1 1

/-- The test. -/
def nonneg (p : List ℚ) (a b : ℚ) : Bool := (seen p a b).all (fun c => decide (0 ≤ c))

@[simp] theorem eval_nil (x : ℝ) : eval [] x = 0 := rfl
@[simp] theorem eval_cons (c : ℚ) (p : List ℚ) (x : ℝ) : eval (c :: p) x = c + x * eval p x := rfl

@[simp] theorem eval_add (p q : List ℚ) (x : ℝ) : eval (add p q) x = eval p x + eval q x := by
  induction p generalizing q with
  | nil => simp [add]
  | cons a p ih =>
    cases q with
    | nil => simp [add]
    | cons b q =>
      simp only [add, eval_cons, ih]
      push_cast
      ring

@[simp] theorem eval_scale (c : ℚ) (p : List ℚ) (x : ℝ) : eval (scale c p) x = c * eval p x := by
  induction p with
  | nil => simp [scale]
  | cons a p ih =>
    have : scale c (a :: p) = (c * a) :: scale c p := rfl
    rw [this, eval_cons, ih, eval_cons]
    push_cast
    ring

@[simp] theorem eval_mul (p q : List ℚ) (x : ℝ) : eval (mul p q) x = eval p x * eval q x := by
  induction p with
  | nil => simp [mul]
  | cons a p ih =>
    have : mul (a :: p) q = add (scale a q) (0 :: mul p q) := rfl
    rw [this, eval_add, eval_scale, eval_cons, ih, eval_cons]
    push_cast
    ring

theorem eval_comp (p : List ℚ) (a b : ℚ) (x : ℝ) : eval (comp p a b) x = eval p (a + b * x) := by
  induction p with
  | nil => rfl
  | cons c p ih =>
    have : comp (c :: p) a b = add [c] (add (scale a (comp p a b)) (0 :: scale b (comp p a b))) := rfl
    rw [this]
    simp only [eval_add, eval_cons, eval_scale, ih, eval_nil]
    push_cast
    ring

theorem hasDerivAt_eval (p : List ℚ) (x : ℝ) : HasDerivAt (eval p) (eval (deriv p) x) x := by
  induction p with
  | nil =>
    have : eval [] = fun _ : ℝ => (0 : ℝ) := by funext y; rfl
    rw [this]
    exact hasDerivAt_const x 0
  | cons c p ih =>
    have h := ((hasDerivAt_id' x).mul ih).const_add (c : ℝ)
    have e : eval (c :: p) = fun y : ℝ => (c : ℝ) + y * eval p y := by funext y; rfl
    rw [e]
    have e2 : eval (deriv (c :: p)) x = 1 * eval p x + x * eval (deriv p) x := by
      simp only [deriv, eval_add, eval_cons]
      push_cast
      ring
    rw [e2]
    exact h

theorem eval_append (p q : List ℚ) (x : ℝ) : eval (p ++ q) x = eval p x + x ^ p.length * eval q x := by
  induction p with
  | nil => simp
  | cons c p ih =>
    simp only [List.cons_append, eval_cons, ih, List.length_cons]
    ring

theorem eval_reverse (p : List ℚ) {x : ℝ} (hx : x ≠ 0) :
    x * eval p.reverse x = x ^ p.length * eval p x⁻¹ := by
  induction p with
  | nil => simp
  | cons c p ih =>
    rw [List.reverse_cons, eval_append, eval_cons, eval_cons, List.length_reverse, List.length_cons, mul_add, ih]
    simp only [eval_nil]
    field_simp
    ring

theorem eval_nonneg {p : List ℚ} (h : ∀ c ∈ p, 0 ≤ c) {x : ℝ} (hx : 0 ≤ x) : 0 ≤ eval p x := by
  induction p with
  | nil => simp
  | cons c p ih =>
    rw [eval_cons]
    have h1 : (0 : ℝ) ≤ c := by exact_mod_cast h c (by simp)
    have h2 := ih (fun d hd => h d (by simp [hd]))
    positivity

/-- The test is sound. -/
theorem nonneg_spec {p : List ℚ} {a b : ℚ} (h : nonneg p a b = true) {x : ℝ} (h1 : (a : ℝ) < x) (h2 : x ≤ b) :
    0 ≤ eval p x := by
  have hab : (0 : ℝ) < (b : ℝ) - a := by linarith
  set y : ℝ := (x - a) / (b - a) with hy
  have hy0 : 0 < y := div_pos (by linarith) hab
  have hy1 : y ≤ 1 := (div_le_one hab).2 (by linarith)
  have hw : 0 ≤ y⁻¹ - 1 := by
    have := (one_le_inv₀ hy0).2 hy1
    linarith
  have hs : 0 ≤ eval (seen p a b) (y⁻¹ - 1) := by
    refine eval_nonneg (fun c hc => ?_) hw
    have := List.all_eq_true.1 h c hc
    simpa using this
  unfold seen at hs
  rw [eval_comp] at hs
  have e1 : ((1 : ℚ) : ℝ) + ((1 : ℚ) : ℝ) * (y⁻¹ - 1) = y⁻¹ := by push_cast; ring
  rw [e1] at hs
  have hr := eval_reverse (comp p a (b - a)) (inv_ne_zero hy0.ne')
  rw [inv_inv, eval_comp] at hr
  have e2 : (a : ℝ) + ((b - a : ℚ) : ℝ) * y = x := by
    rw [hy]
    push_cast
    field_simp
    ring
  rw [e2] at hr
  have hpos : 0 < y⁻¹ ^ (comp p a (b - a)).length := by positivity
  have : 0 ≤ y⁻¹ ^ (comp p a (b - a)).length * eval p x := by
    rw [← hr]
    exact mul_nonneg (inv_nonneg.2 hy0.le) hs
  exact nonneg_of_mul_nonneg_right this hpos

/-- The test on several adjacent intervals. -/
def nonnegOn (p : List ℚ) : ℚ → List ℚ → Bool
  | _, [] => true
  | a, b :: r => nonneg p a b && nonnegOn p b r

theorem nonnegOn_spec {p : List ℚ} : ∀ {a : ℚ} {bs : List ℚ}, nonnegOn p a bs = true → ∀ {x : ℝ}, (a : ℝ) < x →
    (∃ b, bs.getLast? = some b ∧ x ≤ b) → 0 ≤ eval p x
  | a, [], _, x, _, h2 => by simp at h2
  | a, [b], h, x, h1, h2 => by
    simp only [nonnegOn, Bool.and_true] at h
    obtain ⟨b', hb, hx⟩ := h2
    simp only [List.getLast?_singleton, Option.some.injEq] at hb
    subst hb
    exact nonneg_spec h h1 hx
  | a, b :: c :: r, h, x, h1, h2 => by
    simp only [nonnegOn, Bool.and_eq_true] at h
    by_cases hx : x ≤ b
    · exact nonneg_spec h.1 h1 hx
    · refine nonnegOn_spec (a := b) (bs := c :: r) (by simp only [nonnegOn, Bool.and_eq_true]; exact h.2)
        (not_le.1 hx) ?_
      simpa using h2

end PolyQ
end Fisx
