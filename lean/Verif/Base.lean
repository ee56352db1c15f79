/-!
# Outcomes of C++ calls

Every modelled method returns an `Outcome`. A C++ call can return normally, throw one of the
standard exceptions fisx uses, execute undefined behaviour, or fail to return.
-/

namespace Fisx

/-- The exception classes thrown in /repo/src (`std::invalid_argument`, `std::runtime_error`,
`std::domain_error`, `std::ios_base::failure`, `std::length_error`), and `std::out_of_range` thrown by `substr`. -/
inductive Exc
  | invalidArgument
  | runtimeError
  | domainError
  | ioFailure
  | outOfRange
  | lengthError
deriving DecidableEq, Repr

/-- The kinds of undefined behaviour the model distinguishes. -/
inductive UB
  | outOfBounds   -- `v[i]` with `i` not below `v.size()`
  | derefEnd      -- `it->second` with `it == end()`
  | nullDeref     -- dereferencing a null pointer
  | dangling      -- returning a reference to a local
  | uninitialised -- reading a variable that has no value
deriving DecidableEq, Repr

/-- What a call does. -/
inductive Outcome (α : Type _)
  | ok (a : α)
  | throw (e : Exc)
  | ub (u : UB)
  | diverge
deriving DecidableEq, Repr

namespace Outcome

/-- Sequencing: the first exception, undefined behaviour or divergence wins. -/
def bind {α β} (x : Outcome α) (f : α → Outcome β) : Outcome β :=
  match x with
  | ok a => f a
  | throw e => throw e
  | ub u => ub u
  | diverge => diverge

instance : Monad Outcome where
  pure := ok
  bind := bind

@[simp] theorem pure_eq {α} (a : α) : (pure a : Outcome α) = ok a := rfl
@[simp] theorem ok_bind {α β} (a : α) (f : α → Outcome β) : (ok a >>= f) = f a := rfl
@[simp] theorem throw_bind {α β} (e : Exc) (f : α → Outcome β) :
    ((throw e : Outcome α) >>= f) = throw e := rfl
@[simp] theorem ub_bind {α β} (u : UB) (f : α → Outcome β) :
    ((ub u : Outcome α) >>= f) = ub u := rfl
@[simp] theorem diverge_bind {α β} (f : α → Outcome β) :
    ((diverge : Outcome α) >>= f) = diverge := rfl

theorem bind_eq_ok {α β} {x : Outcome α} {f : α → Outcome β} {b : β} :
    (x >>= f) = ok b ↔ ∃ a, x = ok a ∧ f a = ok b := by
  cases x <;> simp

/-- The call returned normally. -/
def isOk {α} : Outcome α → Bool
  | ok _ => true
  | _ => false

/-- The call threw an exception. -/
def isThrow {α} : Outcome α → Bool
  | throw _ => true
  | _ => false

/-- The call executed undefined behaviour. -/
def isUB {α} : Outcome α → Bool
  | ub _ => true
  | _ => false

end Outcome

/-- `v[i]` on a `std::vector`: undefined behaviour when the index is not valid. -/
def vget {α} (v : List α) (i : Nat) : Outcome α :=
  match v[i]? with
  | some a => .ok a
  | none => .ub .outOfBounds

theorem vget_lt {α} (v : List α) (i : Nat) (h : i < v.length) : vget v i = .ok v[i] := by
  simp [vget, h]

theorem vget_ge {α} (v : List α) (i : Nat) (h : v.length ≤ i) : vget v i = .ub .outOfBounds := by
  simp [vget, h]

end Fisx
