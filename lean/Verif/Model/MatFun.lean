import Verif.Model.Helpers
import Mathlib.LinearAlgebra.Matrix.NonsingularInverse
import Mathlib.Analysis.SpecialFunctions.Log.Base
/-!
# helpers.h: matrix exponential, square root and logarithm

Exact real arithmetic; square matrices are Mathlib's `Matrix (Fin n) (Fin n) ℝ` with Mathlib's operations, which TooN's
operators compute by C09/C10, and `gaussian_elimination(M, Identity)` is `M⁻¹` by C17 (division by zero iff `M` is
singular).

The loops stop on comparisons `norm_inf(...) > 0`.  Here they are `norm_inf(...) > tol`: `tol = 0` is the code in exact
arithmetic; a positive `tol` stands for the coarseness of floating-point addition in that comparison (`result + f == result`
holds for small nonzero `f`).  No other rounding is modelled.
-/
namespace TooN.MatFun
open Matrix
open scoped Classical
noncomputable section

/-- square matrices -/
abbrev Sq (n : Nat) := Matrix (Fin n) (Fin n) ℝ

/-- result of a computation with loops -/
inductive Run (α : Type)
  /-- returned -/
  | ret (a : α)
  /-- the loop budget is used up -/
  | running
  /-- division by zero (the result is then NaN or infinite) -/
  | divZero
  /-- undefined behaviour -/
  | ub

variable {n : Nat}

/-- element access of the stored matrix -/
def store (A : Sq n) : Mat ℝ := fun i j => if h : i < n ∧ j < n then A ⟨i, h.1⟩ ⟨j, h.2⟩ else 0

/-- `norm_inf(m)` (helpers.h:254-266), see `Helpers.normInfM` -/
def ninf (A : Sq n) : ℝ := Helpers.normInfM n n (store A)

/-- the loop of `exp_taylor` (helpers.h:295-299) -/
def expTaylorLoop (tol : ℝ) (m : Sq n) : Nat → Sq n → Sq n → ℝ → Run (Sq n)
  | 0, _, _, _ => .running
  | fuel + 1, result, f, k =>
    if ninf ((result + f) - result) > tol then
      expTaylorLoop tol m fuel (result + f) ((1 / k) • (m * f)) (k + 1)
    else .ret result

/-- `exp_taylor(m)` (helpers.h:290-301) -/
def expTaylor (tol : ℝ) (fuel : Nat) (m : Sq n) : Run (Sq n) := expTaylorLoop tol m fuel 0 1 1

/-- the loop of `log_taylor` (helpers.h:313-317) -/
def logTaylorLoop (tol : ℝ) (X : Sq n) : Nat → Sq n → Sq n → ℝ → Run (Sq n)
  | 0, _, _, _ => .running
  | fuel + 1, sum, F, k =>
    if ninf ((sum + (1 / k) • F) - sum) > tol then
      logTaylorLoop tol X fuel (sum + (1 / k) • F) (-F * X) (k + 1)
    else .ret sum

/-- `log_taylor(m)` (helpers.h:307-319) -/
def logTaylor (tol : ℝ) (fuel : Nat) (m : Sq n) : Run (Sq n) := logTaylorLoop tol (m - 1) fuel 0 (m - 1) 1

/-- `max(0, (int)ceil(log2(x)))` (helpers.h:333-334) for `x > 0` -/
def scaling (x : ℝ) : Nat := (max 0 ⌈Real.logb 2 x⌉).toNat

/-- `exp(m)` (helpers.h:329-339).  `log2(0)` is minus infinity and its conversion to `int` is undefined, so is `1<<s` for
`s ≥ 31`. -/
def exp (tol : ℝ) (fuel : Nat) (m : Sq n) : Run (Sq n) :=
  if ninf m = 0 then .ub
  else
    let s := scaling (ninf m)
    if 31 ≤ s then .ub
    else
      match expTaylor tol fuel ((1 / (2 : ℝ) ^ s) • m) with
      | .ret r => .ret (forN s (fun _ r => r * r) r)
      | .running => .running
      | .divZero => .divZero
      | .ub => .ub

/-- the loop of `sqrt` (helpers.h:356-360) with `M`, `Y` -/
def sqrtLoop (tol : ℝ) : Nat → Sq n → Sq n → Run (Sq n)
  | 0, _, _ => .running
  | fuel + 1, M, Y =>
    if M.det = 0 then .divZero
    else
      let Minv := M⁻¹
      let Y := (0.5 : ℝ) • (Y * (1 + Minv))
      let M := (0.5 : ℝ) • (1 + (0.5 : ℝ) • (M + Minv))
      if ninf (M - Minv) > tol then sqrtLoop tol fuel M Y else .ret Y

/-- `sqrt(m)` (helpers.h:349-362) -/
def sqrt (tol : ℝ) (fuel : Nat) (m : Sq n) : Run (Sq n) := sqrtLoop tol fuel m m

/-- the loop of `log` and its result (helpers.h:376-380) -/
def logLoop (tol : ℝ) (fuelT fuelS : Nat) : Nat → Nat → Sq n → Run (Sq n)
  | 0, _, _ => .running
  | fuel + 1, counter, A =>
    if ninf (A - 1) > 0.5 then
      match sqrt tol fuelS A with
      | .ret A' => logLoop tol fuelT fuelS fuel (counter + 1) A'
      | .running => .running
      | .divZero => .divZero
      | .ub => .ub
    else
      match logTaylor tol fuelT A with
      | .ret L => .ret ((2 : ℝ) ^ counter • L)
      | .running => .running
      | .divZero => .divZero
      | .ub => .ub

/-- `log(m)` (helpers.h:372-381); the three budgets are those of the loops in `log_taylor`, `sqrt` and `log` -/
def log (tol : ℝ) (fuelT fuelS fuel : Nat) (m : Sq n) : Run (Sq n) := logLoop tol fuelT fuelS fuel 0 m

end
end TooN.MatFun
