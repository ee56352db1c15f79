import Verif.Base
import Mathlib.Analysis.SpecialFunctions.Log.Basic
import Mathlib.Analysis.SpecialFunctions.Log.Deriv
import Mathlib.Analysis.SpecialFunctions.Exp
import Mathlib.Analysis.Complex.ExponentialBounds
import Mathlib.Tactic.Linarith
import Mathlib.Tactic.Ring
import Mathlib.Tactic.FieldSimp
import Mathlib.Tactic.Positivity
import Mathlib.Tactic.NormNum

/-!
# Model of `fisx::Math` (/repo/src/fisx_math.cpp, /repo/src/fisx_math.h)

The numbers are real numbers (no rounding and no overflow). An infinite or undefined intermediate result is `none`
in the type `Option ℝ`; the tests `isFiniteNumber` (fisx_math.cpp:499-502) are true for `some` and false for `none`.
The build with NDEBUG is modelled here (fisx_math.cpp:192-203), the other one in MathDebug.lean; `deBoerY` and `deBoerW` have no implementation.
-/

namespace Fisx
namespace MathFn

/-- fisx_math.cpp:115-135, `AS_5_1_53` without its guard: Horner evaluation. -/
noncomputable def as53 (x : ℝ) : ℝ :=
  (((((0.00107857 * x + (-0.00976004)) * x + 0.05519968) * x + (-0.24991055)) * x + 0.99999193) * x)
    + (-0.57721566)

/-- fisx_math.cpp:115-135. -/
noncomputable def AS_5_1_53 (x : ℝ) : Outcome ℝ :=
  if x > 1 then .throw .invalidArgument else .ok (as53 x)

/-- fisx_math.cpp:137-157. -/
noncomputable def AS_5_1_56 (x : ℝ) : Outcome ℝ :=
  if x < 1 then .throw .invalidArgument
  else
    let num := (((0.2677737343 * x * x + 8.6347608925) * x + 18.0590169730) * x) + 8.5733287401
    let den := (((3.9584969228 * x * x + 21.0996530827) * x + 25.6329561486) * x) + 9.5733223454
    .ok (num / den)

/-- fisx_math.cpp:551-555: the mean of the two bounds. -/
noncomputable def lentzFallback (x : ℝ) : ℝ :=
  0.5 * (0.5 * Real.log (1 + 2 / x) + Real.log (1 + 1 / x))

/-- fisx_math.cpp:529-548: the loop of the continued fraction; `i` is the loop variable and `n` the number of
iterations left. -/
noncomputable def lentzLoop (x eps : ℝ) (i n : Nat) (b f C D : ℝ) : ℝ :=
  match n with
  | 0 => lentzFallback x
  | n + 1 =>
    let b := b + 2
    let a : ℝ := - ((i : ℝ) * i)
    let C := b + a / C
    let D := b + a * D
    let D := 1 / D
    let delta := C * D
    let f := f * delta
    if |delta - 1| < eps then 1 / f else lentzLoop x eps (i + 1) n b f C D

/-- fisx_math.cpp:504-556, `_deBoerD`. -/
noncomputable def deBoerCF (x : ℝ) (eps : ℝ := 1.0e-7) (maxIter : Nat := 100) : Outcome ℝ :=
  if x ≤ 1 then .throw .runtimeError
  else .ok (lentzLoop x eps 1 (maxIter - 1) (1 + x) (1 + x) (1 + x) 0)

/-- fisx_math.cpp:57-65: ten terms of the series of Abramowitz and Stegun 5.1.11, for negative arguments. -/
noncomputable def e1Series (x : ℝ) : ℝ :=
  (-0.577215664901532860 - ((List.range' 1 10).map (fun n : Nat => (-x) ^ n / ((n : ℝ) * (n.factorial : ℝ)))).sum)
    - Real.log (-x)

/-- fisx_math.cpp:37-83. -/
noncomputable def E1 (x : ℝ) : Outcome ℝ :=
  if x = 0 then .throw .invalidArgument
  else if x < 0 then .ok (e1Series x)
  else if x < 1 then do
    let a ← AS_5_1_53 x
    return a - Real.log x
  else do
    let d ← deBoerCF x
    return Real.exp (-x) * d

/-- fisx_math.cpp:85-112; `k` is n - 1 for a positive order n. -/
noncomputable def enAux (k : Nat) (x : ℝ) : Outcome ℝ :=
  match k with
  | 0 => E1 x
  | k + 1 =>
    if x = 0 then .ok (1 / ((k : ℝ) + 1))
    else do
      let e ← enAux k x
      return (Real.exp (-x) - x * e) / ((k : ℝ) + 1)

/-- fisx_math.cpp:85-112. -/
noncomputable def En (n : Int) (x : ℝ) : Outcome ℝ :=
  if n < 1 then .throw .runtimeError else enAux (n - 1).toNat x

/-- fisx_math.cpp:192-203: `exp(x) * E1(x)`; infinite at 0. -/
noncomputable def deBoerD (x : ℝ) : Outcome (Option ℝ) :=
  if x < 0 then do
    let e ← E1 x
    return some (Real.exp x * e)
  else if x > 1 then do
    let d ← deBoerCF x
    return some d
  else do
    let a ← AS_5_1_53 x
    if x = 0 then return none else return some (Real.exp x * (a - Real.log x))

/-- The value of `log`, not finite at 0 and below. -/
noncomputable def flog (x : ℝ) : Option ℝ := if x ≤ 0 then none else some (Real.log x)

/-- `a / b`, not finite when `b` is 0. -/
noncomputable def fdiv (a b : ℝ) : Option ℝ := if b = 0 then none else some (a / b)

/-- fisx_math.cpp:277-293: the general formula of `deBoerL0`. -/
noncomputable def deBoerL0Formula (mu1 mu2 muj d D1 D2 D3 : ℝ) : Option ℝ := do
  let t := (D1 / (mu2 * (mu1 + mu2)) - D2 / (mu1 * mu2) + D3 / (mu1 * (mu1 + mu2))) * Real.exp (-(mu1 + muj) * d)
  let l ← flog (1 + mu1 / muj)
  let t := t + l / (mu1 * (mu1 + mu2))
  let l2 ← if mu2 < muj then flog (1 - mu2 / muj) else flog (mu2 / muj - 1)
  return t + Real.exp (-(mu1 + mu2) * d) / (mu2 * (mu1 + mu2)) * l2

/-- fisx_math.cpp:294-312: the final tests of `deBoerL0` (a non-finite result is never below 0, or is rejected in
either case with the same class of exception). -/
noncomputable def checkResult (r : Option ℝ) : Outcome ℝ :=
  match r with
  | none => .throw .runtimeError
  | some v => if v < 0 then .throw .runtimeError else .ok v

/-- fisx_math.cpp:207-313 (the arguments are finite numbers). -/
noncomputable def deBoerL0 (mu1 mu2 muj density thickness : ℝ) : Outcome ℝ :=
  if mu1 ≤ 0 ∨ mu2 ≤ 0 ∨ muj ≤ 0 then .throw .runtimeError
  else
    let d := thickness * density
    if (mu1 + mu2) * d > 10 then .ok ((muj / mu1) * Real.log (1 + mu1 / muj) / ((mu1 + mu2) * muj))
    else if (mu1 + mu2) * d < 0.01 then .ok 0
    else do
      let D1 ← deBoerD ((muj - mu2) * d)
      let D2 ← deBoerD (muj * d)
      let D3 ← deBoerD ((muj + mu1) * d)
      checkResult (do deBoerL0Formula mu1 mu2 muj d (← D1) (← D2) (← D3))

/-- A non-finite intermediate result is rejected (fisx_math.cpp:404, 432, 448, 462, 475). -/
noncomputable def finiteOr (r : Option ℝ) : Outcome ℝ :=
  match r with
  | none => .throw .runtimeError
  | some v => .ok v

/-- fisx_math.cpp:393-421: V(0, 0) without intermediate layer. -/
noncomputable def deBoerV00 (p q mu1j mu2j : ℝ) : Option ℝ := do
  let a ← fdiv q mu1j
  let b ← fdiv p mu2j
  let l1 ← flog |1 - a|
  let l2 ← flog |1 + b|
  let u ← fdiv mu2j p
  let v ← fdiv mu1j q
  fdiv (-(u * l2 + v * l1)) (p * mu1j + q * mu2j)

/-- fisx_math.cpp:384-492. Simplification: an intermediate infinity is taken as a non-finite result, although it could
disappear again in a division. -/
noncomputable def deBoerV (p q d1 d2 mu1j mu2j mubjdt : ℝ) : Outcome ℝ :=
  if mubjdt = 0 ∧ d1 = 0 ∧ d2 = 0 then finiteOr (deBoerV00 p q mu1j mu2j)
  else do
    let r ← finiteOr (fdiv p mu2j)
    let h := mu1j * d1 + mubjdt + mu2j * d2
    let D1 ← deBoerD ((1 + r) * h)
    let k1 ← finiteOr (fdiv mu2j (p * (p * mu1j + q * mu2j)))
    let t1 ← finiteOr (D1.map (fun D => k1 * D))
    let s ← finiteOr (fdiv q mu1j)
    let D2 ← deBoerD ((1 - s) * h)
    let k2 ← finiteOr (fdiv mu1j (q * (p * mu1j + q * mu2j)))
    let t2 ← finiteOr (D2.map (fun D => k2 * D))
    let D3 ← deBoerD h
    let t3 ← finiteOr (D3.bind (fun D => fdiv D (p * q)))
    return Real.exp ((q - mu1j) * d1 - (p + mu2j) * d2 - mubjdt) * (t1 + (t2 - t3))

/-- fisx_math.cpp:315-382 (the branch `if ((false))` is never taken). -/
noncomputable def deBoerX (p q d1 d2 mu1j mu2j mubjdt : ℝ) : Outcome ℝ := do
  let a ← deBoerV p q d1 d2 mu1j mu2j mubjdt
  let b ← deBoerV p q d1 0 mu1j mu2j mubjdt
  let c ← deBoerV p q 0 d2 mu1j mu2j mubjdt
  let e ← deBoerV p q 0 0 mu1j mu2j mubjdt
  return a - b - c + e

/-- fisx_math.cpp:558-562; not a number when the radicand is negative. -/
noncomputable def getFWHM (energy noise fano quantumEnergy : ℝ) : Option ℝ :=
  let r := noise * noise + energy * fano * 2.3548 * 2.3548 * quantumEnergy
  if r < 0 then none else some (Real.sqrt r)

/-- fisx_math.cpp:573-575, 591-593: the exponent of the rational approximation without `- z * z`. -/
noncomputable def erfPoly (t : ℝ) : ℝ :=
  -1.26551223 + t * (1.00002368 + t * (0.3740916 + t * (0.09678418 + t * (-0.18628806 + t * (0.27886807
    + t * (-1.13520398 + t * (1.48851587 + t * (-0.82215223 + t * 0.17087277))))))))

/-- fisx_math.cpp:571-575. -/
noncomputable def erfR (x : ℝ) : ℝ :=
  let z := |x|
  let t := 1 / (1 + 0.5 * z)
  t * Real.exp (-z * z + erfPoly t)

/-- fisx_math.cpp:565-581. -/
noncomputable def erf (x : ℝ) : ℝ := 1 - (if x < 0 then 2 - erfR x else erfR x)

/-- fisx_math.cpp:583-599. -/
noncomputable def erfc (x : ℝ) : ℝ := if x < 0 then 2 - erfR x else erfR x

end MathFn
end Fisx
