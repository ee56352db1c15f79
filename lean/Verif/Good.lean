import Verif.Base

/-!
# Calls that return, or at most throw
-/

namespace Fisx

/-- The call returns, or (when `b` is true) throws an exception: no undefined behaviour and no divergence. -/
def Outcome.Good (b : Bool) {α : Type} : Outcome α → Prop
  | .ok _ => True
  | .throw _ => b = true
  | .ub _ => False
  | .diverge => False

namespace Outcome

theorem Good.ok {b : Bool} {α : Type} (a : α) : Good b (Outcome.ok a) := trivial

theorem Good.bind {b : Bool} {α β : Type} {x : Outcome α} {f : α → Outcome β} (h : Good b x)
    (hf : ∀ a, x = .ok a → Good b (f a)) : Good b (x >>= f) := by
  cases x with
  | ok a => exact hf a rfl
  | throw e => exact h
  | ub u => exact h
  | diverge => exact h

theorem Good.ite {b : Bool} {α : Type} {c : Prop} [Decidable c] {x y : Outcome α} (h : c → Good b x)
    (h' : ¬ c → Good b y) : Good b (if c then x else y) := by
  by_cases hc : c
  · rw [if_pos hc]; exact h hc
  · rw [if_neg hc]; exact h' hc

theorem Good.left {b : Bool} {α β : Type} {x : Outcome α} {f : α → Outcome β} (h : Good b (x >>= f)) : Good b x := by
  cases x with
  | ok a => trivial
  | throw e => exact h
  | ub u => exact h
  | diverge => exact h

theorem Good.of_false {b : Bool} {α : Type} {x : Outcome α} (h : Good false x) : Good b x := by
  cases x with
  | ok a => trivial
  | throw e => exact absurd h (by simp [Good])
  | ub u => exact h
  | diverge => exact h

theorem good_false_iff {α : Type} {x : Outcome α} : Good false x ↔ ∃ a, x = .ok a := by
  cases x <;> simp [Good]

theorem good_true_iff {α : Type} {x : Outcome α} : Good true x ↔ (∃ a, x = .ok a) ∨ ∃ e, x = .throw e := by
  cases x <;> simp [Good]

end Outcome

open Outcome in
theorem vget_good {b : Bool} {α : Type} {l : List α} {i : Nat} (h : i < l.length) : Good b (vget l i) := by
  rw [vget_lt l i h]; trivial

end Fisx
