import Verif.Model.Fad
import Mathlib.Analysis.Calculus.FDeriv.Basic
/-!
# What a forward-mode number stands for

`x` represents the function `f` of `D` variables at the point `p` if its value is `f p` and its derivatives are the partial derivatives of
`f` at `p`.
-/
namespace TooN.Fad
noncomputable section

/-- the linear form with the given partial derivatives -/
def form {D : Nat} (g : Fin D → ℝ) : (Fin D → ℝ) →L[ℝ] ℝ := ∑ d, g d • ContinuousLinearMap.proj (R := ℝ) (φ := fun _ : Fin D => ℝ) d

def Represents {D : Nat} (x : F D) (f : (Fin D → ℝ) → ℝ) (p : Fin D → ℝ) : Prop :=
  val x = f p ∧ HasFDerivAt f (form (deriv x)) p

/-- the `n` variables from number `start` on -/
def vars {D : Nat} (n start : Nat) (h : start + n ≤ D) (e : Fin D → ℝ) : Fin n → ℝ := fun i => e ⟨start + i, by omega⟩

end
end TooN.Fad
