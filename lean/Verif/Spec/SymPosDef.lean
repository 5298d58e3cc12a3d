import Verif.Spec.Linear
import Mathlib.Algebra.Order.Field.Basic
/-! Positive (semi)definiteness of a real-like symmetric matrix, in elementary terms. -/
namespace TooN
variable {K : Type _} [Field K] [LinearOrder K]

/-- symmetric and `xᵀ M x > 0` for all `x ≠ 0` -/
def SymPosDef {n : Nat} (M : Matrix (Fin n) (Fin n) K) : Prop :=
  M.transpose = M ∧ ∀ x : Fin n → K, x ≠ 0 → 0 < dotProduct x (M.mulVec x)

/-- symmetric and `xᵀ M x ≥ 0` for all `x` -/
def SymPosSemidef {n : Nat} (M : Matrix (Fin n) (Fin n) K) : Prop :=
  M.transpose = M ∧ ∀ x : Fin n → K, 0 ≤ dotProduct x (M.mulVec x)

/-- the symmetric matrix whose lower half (with diagonal) is that of `A` -/
def lowerSym (A : Mat K) : Mat K := fun r c => if c ≤ r then A r c else A c r

omit [Field K] [LinearOrder K] in
theorem lowerSym_of_symm (n : Nat) (A : Mat K) (h : (asM n n A).transpose = asM n n A) :
    asM n n (lowerSym A) = asM n n A := by
  ext i j
  simp only [asM_apply, lowerSym]
  split
  · rfl
  · have := congrFun (congrFun h i) j
    simpa using this

end TooN
