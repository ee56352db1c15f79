import Mathlib.Data.Int.Log
import Mathlib.Data.Real.Archimedean
import Mathlib.Algebra.Order.Round
import Mathlib.Algebra.Order.Archimedean.Real.Basic
import Mathlib.Tactic.Linarith
import Mathlib.Tactic.Positivity
import Mathlib.Tactic.Ring
import Mathlib.Tactic.FieldSimp
import Mathlib.Tactic.NormNum

/-!
# Arithmetic that rounds

The other modules compute with exact numbers. The C++ code computes with `double`: every addition, multiplication and
division is carried out exactly and then rounded. Here is what the theorems of `RoundingProps` assume of that
rounding, and the proof that binary floating point with any precision, and the rounding of IEEE-754 in particular,
has it. The range of the exponent is not modelled: neither overflow nor underflow (see DESIGN.md).
-/

set_option linter.unusedSectionVars false

namespace Fisx

/-- A rounding with unit roundoff `u`: it keeps the order, moves no number by more than the fraction `u` of it, leaves
alone what it has rounded already, and leaves one alone. No source line: the semantics of `double` in C++ (IEEE-754). -/
structure Rounding (u : ℝ) where
  rnd : ℝ → ℝ
  mono : Monotone rnd
  near : ∀ x, |rnd x - x| ≤ u * |x|
  idem : ∀ x, rnd (rnd x) = rnd x
  one : rnd 1 = 1

namespace Rounding

/-- A number that is a `double` already. -/
def Fits {u : ℝ} (ρ : Rounding u) (x : ℝ) : Prop := ρ.rnd x = x

variable {u : ℝ} (ρ : Rounding u)

theorem zero : ρ.rnd 0 = 0 := by
  have := ρ.near 0
  simpa using this

theorem le_up {x : ℝ} (hx : 0 ≤ x) : ρ.rnd x ≤ (1 + u) * x := by
  have h := abs_le.1 (ρ.near x)
  rw [abs_of_nonneg hx] at h
  linarith [h.2]

theorem ge_down {x : ℝ} (hx : 0 ≤ x) : (1 - u) * x ≤ ρ.rnd x := by
  have h := abs_le.1 (ρ.near x)
  rw [abs_of_nonneg hx] at h
  linarith [h.1]

theorem nonneg {x : ℝ} (hx : 0 ≤ x) : 0 ≤ ρ.rnd x := by
  have := ρ.mono hx
  rwa [ρ.zero] at this

theorem le_one {x : ℝ} (hx : x ≤ 1) : ρ.rnd x ≤ 1 := by
  have := ρ.mono hx
  rwa [ρ.one] at this

theorem pos (hu : u < 1) {x : ℝ} (hx : 0 < x) : 0 < ρ.rnd x :=
  lt_of_lt_of_le (mul_pos (by linarith) hx) (ρ.ge_down (le_of_lt hx))

/-- Exact arithmetic is a rounding. -/
def exact : Rounding 0 where
  rnd x := x
  mono _ _ h := h
  near x := by simp
  idem _ := rfl
  one := rfl

/-! ## Binary floating point -/

section Binary

variable (p : ℕ) (ri : ℝ → ℤ)

/-- The distance of the numbers with `p + 1` significant bits that are as large as `x`. -/
noncomputable def ulp (x : ℝ) : ℝ := (2 : ℝ) ^ (Int.log 2 x - p)

/-- The rounding of a positive number: the significand is rounded to an integer by `ri`. -/
noncomputable def posRnd (x : ℝ) : ℝ := (ri (x / ulp p x) : ℝ) * ulp p x

/-- The rounding of a number to `p + 1` significant bits. -/
noncomputable def binRnd (x : ℝ) : ℝ :=
  if 0 < x then posRnd p ri x else if x < 0 then - posRnd p ri (-x) else 0

variable {p ri}

theorem ulp_pos (x : ℝ) : 0 < ulp p x := by unfold ulp; exact zpow_pos (by norm_num) _

theorem pow_div_ulp (x : ℝ) (k : ℕ) :
    (2 : ℝ) ^ (Int.log 2 x + k) / ulp p x = (((2 : ℤ) ^ (p + k) : ℤ) : ℝ) := by
  unfold ulp
  rw [← zpow_sub₀ (by norm_num)]
  have : Int.log 2 x + k - (Int.log 2 x - p) = ((p + k : ℕ) : ℤ) := by push_cast; ring
  rw [this, zpow_natCast]
  push_cast
  rfl

variable (hm : Monotone ri) (hi : ∀ n : ℤ, ri n = n)
include hm hi

theorem posRnd_bounds {x : ℝ} (hx : 0 < x) :
    (2 : ℝ) ^ (Int.log 2 x) ≤ posRnd p ri x ∧ posRnd p ri x ≤ (2 : ℝ) ^ (Int.log 2 x + 1) := by
  have hq := ulp_pos (p := p) x
  have h1 : (2 : ℝ) ^ (Int.log 2 x) ≤ x := by
    have := Int.zpow_log_le_self (b := 2) (by norm_num) hx
    simpa using this
  have h2 : x ≤ (2 : ℝ) ^ (Int.log 2 x + 1) := by
    have := Int.lt_zpow_succ_log_self (b := 2) (by norm_num) x
    exact le_of_lt (by simpa using this)
  have e0 := pow_div_ulp (p := p) x 0
  have e1 := pow_div_ulp (p := p) x 1
  simp only [Nat.cast_zero, add_zero, Nat.cast_one] at e0 e1
  unfold posRnd
  constructor
  · rw [← div_le_iff₀ hq, e0]
    have : ri (((2 : ℤ) ^ p : ℤ) : ℝ) ≤ ri (x / ulp p x) := by
      apply hm
      rw [← e0]
      exact div_le_div_of_nonneg_right h1 (le_of_lt hq)
    rw [hi] at this
    exact_mod_cast this
  · rw [← le_div_iff₀ hq, e1]
    have : ri (x / ulp p x) ≤ ri (((2 : ℤ) ^ (p + 1) : ℤ) : ℝ) := by
      apply hm
      rw [← e1]
      exact div_le_div_of_nonneg_right h2 (le_of_lt hq)
    rw [hi] at this
    exact_mod_cast this

theorem posRnd_pos {x : ℝ} (hx : 0 < x) : 0 < posRnd p ri x :=
  lt_of_lt_of_le (zpow_pos (by norm_num) _) (posRnd_bounds hm hi hx).1

theorem posRnd_mono {x y : ℝ} (hx : 0 < x) (hxy : x ≤ y) : posRnd p ri x ≤ posRnd p ri y := by
  have hl : Int.log 2 x ≤ Int.log 2 y := Int.log_mono_right hx hxy
  rcases eq_or_lt_of_le hl with h | h
  · unfold posRnd
    have hu : ulp p x = ulp p y := by unfold ulp; rw [h]
    rw [hu]
    apply mul_le_mul_of_nonneg_right _ (le_of_lt (ulp_pos y))
    exact_mod_cast hm (div_le_div_of_nonneg_right hxy (le_of_lt (ulp_pos y)))
  · calc posRnd p ri x ≤ (2 : ℝ) ^ (Int.log 2 x + 1) := (posRnd_bounds hm hi hx).2
      _ ≤ (2 : ℝ) ^ (Int.log 2 y) := zpow_le_zpow_right₀ (by norm_num) h
      _ ≤ posRnd p ri y := (posRnd_bounds hm hi (lt_of_lt_of_le hx hxy)).1

theorem posRnd_fix_of_int {y : ℝ} (n : ℤ) (h : y / ulp p y = n) : posRnd p ri y = y := by
  unfold posRnd
  rw [h, hi, ← h, div_mul_cancel₀ _ (ne_of_gt (ulp_pos y))]

theorem posRnd_idem {x : ℝ} (hx : 0 < x) : posRnd p ri (posRnd p ri x) = posRnd p ri x := by
  obtain ⟨h1, h2⟩ := posRnd_bounds (p := p) hm hi hx
  have hp := posRnd_pos (p := p) hm hi hx
  rcases eq_or_lt_of_le h2 with h | h
  · have hl : Int.log 2 (posRnd p ri x) = Int.log 2 x + 1 := by
      rw [h]
      have := Int.log_zpow (R := ℝ) (b := 2) (by norm_num) (Int.log 2 x + 1)
      simpa using this
    apply posRnd_fix_of_int hm hi ((2 : ℤ) ^ p)
    have := pow_div_ulp (p := p) (posRnd p ri x) 0
    rw [hl] at this
    simp only [Nat.cast_zero, add_zero] at this
    rw [← this, ← h]
  · have hl : Int.log 2 (posRnd p ri x) = Int.log 2 x := by
      apply le_antisymm
      · have := (Int.lt_zpow_iff_log_lt (R := ℝ) (b := 2) (by norm_num) hp (x := Int.log 2 x + 1)).1
          (by simpa using h)
        omega
      · exact (Int.zpow_le_iff_le_log (R := ℝ) (b := 2) (by norm_num) hp).1 (by simpa using h1)
    apply posRnd_fix_of_int hm hi (ri (x / ulp p x))
    have hu : ulp p (posRnd p ri x) = ulp p x := by unfold ulp; rw [hl]
    rw [hu]
    unfold posRnd
    rw [mul_div_cancel_right₀ _ (ne_of_gt (ulp_pos x))]

omit hm hi in
theorem posRnd_near (c : ℝ) (hc : 0 ≤ c) (he : ∀ y, |(ri y : ℝ) - y| ≤ c) {x : ℝ} (hx : 0 < x) :
    |posRnd p ri x - x| ≤ c * (1 / 2) ^ p * x := by
  have hq := ulp_pos (p := p) x
  have h1 : (2 : ℝ) ^ (Int.log 2 x) ≤ x := by
    have := Int.zpow_log_le_self (b := 2) (by norm_num) hx
    simpa using this
  have e : posRnd p ri x - x = ((ri (x / ulp p x) : ℝ) - x / ulp p x) * ulp p x := by
    unfold posRnd
    rw [sub_mul, div_mul_cancel₀ _ (ne_of_gt hq)]
  rw [e, abs_mul, abs_of_pos hq]
  have hu : ulp p x = (1 / 2) ^ p * (2 : ℝ) ^ (Int.log 2 x) := by
    unfold ulp
    rw [zpow_sub₀ (by norm_num), zpow_natCast, one_div, inv_pow]
    field_simp
  have hu' : ulp p x ≤ (1 / 2) ^ p * x := by
    rw [hu]
    exact mul_le_mul_of_nonneg_left h1 (by positivity)
  calc |(ri (x / ulp p x) : ℝ) - x / ulp p x| * ulp p x ≤ c * ((1 / 2) ^ p * x) :=
        mul_le_mul (he _) hu' (le_of_lt hq) hc
    _ = c * (1 / 2) ^ p * x := by ring

/-- Binary floating point with `p + 1` significant bits, the significand rounded to an integer by any `ri` that keeps
the order and the integers and is never off by more than `c`, is a rounding with unit roundoff `c / 2 ^ p`. -/
noncomputable def binary (p : ℕ) (ri : ℝ → ℤ) (c : ℝ) (hc : 0 ≤ c) (hm : Monotone ri) (hi : ∀ n : ℤ, ri n = n)
    (he : ∀ y, |(ri y : ℝ) - y| ≤ c) : Rounding (c * (1 / 2) ^ p) where
  rnd := binRnd p ri
  mono := by
    intro x y h
    unfold binRnd
    rcases lt_trichotomy x 0 with hx | hx | hx
    · rw [if_neg (not_lt.2 (le_of_lt hx)), if_pos hx]
      have px := posRnd_pos (p := p) hm hi (neg_pos.2 hx)
      rcases lt_trichotomy y 0 with hy | hy | hy
      · rw [if_neg (not_lt.2 (le_of_lt hy)), if_pos hy]
        exact neg_le_neg (posRnd_mono hm hi (neg_pos.2 hy) (neg_le_neg h))
      · subst hy; simp; linarith
      · rw [if_pos hy]
        have := posRnd_pos (p := p) hm hi hy
        linarith
    · subst hx
      rcases eq_or_lt_of_le h with hy | hy
      · subst hy; simp
      · have := posRnd_pos (p := p) hm hi hy
        simp [hy]
        linarith
    · have hy := lt_of_lt_of_le hx h
      rw [if_pos hx, if_pos hy]
      exact posRnd_mono hm hi hx h
  near := by
    intro x
    unfold binRnd
    rcases lt_trichotomy x 0 with hx | hx | hx
    · rw [if_neg (not_lt.2 (le_of_lt hx)), if_pos hx, abs_of_neg hx]
      have := posRnd_near (p := p) c hc he (neg_pos.2 hx)
      rw [← abs_neg]
      have e : -(-posRnd p ri (-x) - x) = posRnd p ri (-x) - -x := by ring
      rw [e]
      exact this
    · subst hx; simp
    · rw [if_pos hx, abs_of_pos hx]
      exact posRnd_near c hc he hx
  idem := by
    intro x
    rcases lt_trichotomy x 0 with hx | hx | hx
    · have px := posRnd_pos (p := p) hm hi (neg_pos.2 hx)
      have e : binRnd p ri x = - posRnd p ri (-x) := by
        unfold binRnd; rw [if_neg (not_lt.2 (le_of_lt hx)), if_pos hx]
      have e2 : binRnd p ri (- posRnd p ri (-x)) = - posRnd p ri (posRnd p ri (-x)) := by
        unfold binRnd
        rw [if_neg (by linarith), if_pos (by linarith), neg_neg]
      rw [e, e2, posRnd_idem hm hi (neg_pos.2 hx)]
    · subst hx; simp [binRnd]
    · have px := posRnd_pos (p := p) hm hi hx
      have e : binRnd p ri x = posRnd p ri x := by unfold binRnd; rw [if_pos hx]
      have e2 : binRnd p ri (posRnd p ri x) = posRnd p ri (posRnd p ri x) := by
        unfold binRnd; rw [if_pos px]
      rw [e, e2, posRnd_idem hm hi hx]
  one := by
    unfold binRnd
    rw [if_pos one_pos]
    apply posRnd_fix_of_int hm hi ((2 : ℤ) ^ p)
    have := pow_div_ulp (p := p) 1 0
    simpa using this

end Binary

/-! ## The default rounding of IEEE-754: to nearest, ties to even -/

/-- The integer nearest to `y`, the even one of two that are equally near. -/
noncomputable def nearestEven (y : ℝ) : ℤ :=
  if Int.fract y < 1 / 2 then ⌊y⌋
  else if 1 / 2 < Int.fract y then ⌊y⌋ + 1
  else if Even ⌊y⌋ then ⌊y⌋ else ⌊y⌋ + 1

theorem nearestEven_cases (y : ℝ) :
    (nearestEven y = ⌊y⌋ ∧ Int.fract y ≤ 1 / 2) ∨ (nearestEven y = ⌊y⌋ + 1 ∧ 1 / 2 ≤ Int.fract y) := by
  unfold nearestEven
  split_ifs with h1 h2 h3
  · exact Or.inl ⟨rfl, le_of_lt h1⟩
  · exact Or.inr ⟨rfl, le_of_lt h2⟩
  · exact Or.inl ⟨rfl, not_lt.1 h2⟩
  · exact Or.inr ⟨rfl, not_lt.1 h1⟩

theorem nearestEven_mono : Monotone nearestEven := by
  intro x y h
  have hf : ⌊x⌋ ≤ ⌊y⌋ := Int.floor_le_floor h
  rcases eq_or_lt_of_le hf with e | e
  · have hfr : Int.fract x ≤ Int.fract y := by unfold Int.fract; rw [e]; linarith
    unfold nearestEven
    rw [e]
    split_ifs <;> first | omega | linarith
  · rcases nearestEven_cases x with ⟨a, _⟩ | ⟨a, _⟩ <;> rcases nearestEven_cases y with ⟨b, _⟩ | ⟨b, _⟩ <;> omega

theorem nearestEven_int (n : ℤ) : nearestEven n = n := by
  unfold nearestEven
  simp

theorem nearestEven_near (y : ℝ) : |(nearestEven y : ℝ) - y| ≤ 1 / 2 := by
  have hfr := Int.self_sub_floor y
  rcases nearestEven_cases y with ⟨a, h⟩ | ⟨a, h⟩
  · rw [a, abs_le]
    constructor <;> linarith [Int.fract_nonneg y]
  · rw [a, abs_le]
    push_cast
    constructor <;> linarith [Int.fract_lt_one y]

/-- The arithmetic of `double`: 53 significant bits, to nearest, ties to even. -/
noncomputable def double : Rounding (1 / 2 * (1 / 2) ^ 52) :=
  binary 52 nearestEven (1 / 2) (by norm_num) nearestEven_mono nearestEven_int nearestEven_near

/-- Rounding towards zero, with two significant bits: coarse enough for examples worked out by hand. -/
noncomputable def coarse : Rounding (1 * (1 / 2) ^ 1) :=
  binary 1 (fun y => ⌊y⌋) 1 (by norm_num) Int.floor_mono (fun n => by simp) (fun y => by
    rw [abs_le]
    constructor <;> linarith [Int.floor_le y, Int.lt_floor_add_one y])

end Rounding
end Fisx
