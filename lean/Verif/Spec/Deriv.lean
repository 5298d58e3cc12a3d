import Mathlib.LinearAlgebra.Lagrange
import Mathlib.Data.Real.Basic
/-!
# What Ridders' extrapolation should do, in terms of polynomial interpolation

Independent of the model.  `y k` is the value of the difference quotient at the `k`-th step size `1.1⁻ᵏ`; `none` means that it
is not finite.
-/
namespace TooN.Deriv.Spec
open scoped Classical
noncomputable section

/-- the `k`-th step size `1.1⁻ᵏ` -/
def node (k : Nat) : ℝ := (10 / 11) ^ k

/-- the value at `0` of the polynomial of degree at most `j` through the points `(node k, y k)`, `k = i-j … i`; `none` if one of
these values is not finite -/
def E (y : Nat → Option ℝ) (i j : Nat) : Option ℝ :=
  if ∀ k, i - j ≤ k → k ≤ i → y k ≠ none then
    some ((Lagrange.interpolate (Finset.Icc (i - j) i) node (fun k => (y k).getD 0)).eval 0)
  else none

/-- the error estimate of an extrapolation: the larger of the distances to the two extrapolations of one degree less -/
def err (y : Nat → Option ℝ) (i j : Nat) : Option ℝ :=
  match E y i j, E y i (j - 1), E y (i - 1) (j - 1) with
  | some p, some a, some b => some (max |p - a| |p - b|)
  | _, _, _ => none

/-- row `i` contains an estimate with a smaller error than all the rows before -/
def Improves (y : Nat → Option ℝ) (i : Nat) : Prop :=
  ∃ j e, 1 ≤ j ∧ j ≤ i ∧ err y i j = some e ∧
    ∀ i' j' e', 1 ≤ j' → j' ≤ i' → i' < i → err y i' j' = some e' → e < e'

/-- the documented reason to stop after row `i`: some finite extrapolation has been seen, the row brought no improvement, and
its highest order point is not finite or more than twice the best error away from the previous highest order point -/
def Stop (y : Nat → Option ℝ) (i : Nat) : Prop :=
  0 < i ∧ (∃ i' j', 1 ≤ j' ∧ j' ≤ i' ∧ i' ≤ i ∧ E y i' j' ≠ none) ∧ ¬ Improves y i ∧
    (E y i i = none ∨ ∃ a b, E y i i = some a ∧ E y (i - 1) (i - 1) = some b ∧
      ∃ i' j' e, 1 ≤ j' ∧ j' ≤ i' ∧ i' ≤ i ∧ err y i' j' = some e ∧ |a - b| > 2 * e)

/-- `res` is the first extrapolation of least error among those selected by `D`, with its error; if none has a finite error it
is the pair of infinities -/
def IsBest (y : Nat → Option ℝ) (D : Nat → Nat → Prop) (res : Option ℝ × Option ℝ) : Prop :=
  ((∀ i j, D i j → err y i j = none) ∧ res = (none, none)) ∨
  ∃ i j p e, D i j ∧ E y i j = some p ∧ err y i j = some e ∧ res = (some p, some e) ∧
    ∀ i' j' e', D i' j' → err y i' j' = some e' → e ≤ e' ∧ (i' < i ∨ i' = i ∧ j' < j → e < e')

/-- the extrapolations of degree at least one in the first `m` rows -/
def Rows (m i j : Nat) : Prop := 1 ≤ j ∧ j ≤ i ∧ i < m

/-- `res` is the result of Ridders' method on the values `y`: some number `m ≤ 400` of rows is computed, the criterion `Stop` holds
after the last one (unless all 400 were computed) and after none before, and `res` is the best extrapolation seen -/
def Ridders (y : Nat → Option ℝ) (res : Option ℝ × Option ℝ) : Prop :=
  ∃ m, 1 ≤ m ∧ m ≤ 400 ∧ (∀ k, k + 1 < m → ¬ Stop y k) ∧ (m = 400 ∨ Stop y (m - 1)) ∧ IsBest y (Rows m) res

variable {S : Type}

/-- state of the functor after `k` calls at the step sizes `1, 1.1⁻¹, …` -/
def traj (F : S → ℝ → Option ℝ × S) (s : S) : Nat → S
  | 0 => s
  | k + 1 => (F (traj F s k) (node k)).2

/-- values returned by the successive calls -/
def vals (F : S → ℝ → Option ℝ × S) (s : S) (k : Nat) : Option ℝ := (F (traj F s k) (node k)).1

end
end TooN.Deriv.Spec
