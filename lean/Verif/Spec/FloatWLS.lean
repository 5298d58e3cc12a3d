import Mathlib.Analysis.SpecialFunctions.Pow.Real
import Mathlib.Tactic
/-!
# What a weighted measurement contributes to the normal equations, over the reals

Nothing here refers to TooN.
-/
namespace TooN

/-- contributions to least squares: a diagonal prior, or a measurement `m ≈ J · x` of weight `w` -/
inductive Info
  | prior (p : ℕ → ℝ)
  | meas (m : ℝ) (J : ℕ → ℝ) (w : ℝ)

/-- contribution to the matrix of the normal equations: `P`, or `w J Jᵀ` -/
noncomputable def Info.mat : Info → ℕ → ℕ → ℝ
  | .prior p, i, j => if i = j then p i else 0
  | .meas _ J w, i, j => w * J i * J j

/-- contribution to the right-hand side: `w m J` -/
def Info.rhs : Info → ℕ → ℝ
  | .prior _, _ => 0
  | .meas m J w, i => w * m * J i

/-- weighted square of the measured value -/
def Info.energy : Info → ℝ
  | .prior _ => 0
  | .meas m _ w => w * m ^ 2

/-- priors and weights are not negative -/
def Info.Nonneg (n : ℕ) : Info → Prop
  | .prior p => ∀ i, i < n → 0 ≤ p i
  | .meas _ _ w => 0 ≤ w

end TooN
