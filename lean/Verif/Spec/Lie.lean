import Mathlib.LinearAlgebra.Matrix.Determinant.Basic
import Mathlib.LinearAlgebra.Matrix.Notation
import Mathlib.Data.Real.Basic
/-!
# Specification vocabulary for the Lie group classes
-/
namespace TooN.Lie
open Matrix

/-- `m` is a rotation: orthogonal with determinant one -/
structure IsRot {n : Nat} (m : Matrix (Fin n) (Fin n) ℝ) : Prop where
  orth : m * mᵀ = 1
  det : m.det = 1

/-- the matrix of `x ↦ w × x` -/
def skew (w : Fin 3 → ℝ) : Matrix (Fin 3) (Fin 3) ℝ := !![0, -w 2, w 1; w 2, 0, -w 0; -w 1, w 0, 0]

/-- the `(n+1)×(n+1)` matrix `[X, t; 0, c]` -/
def aug {n : Nat} (c : ℝ) (X : Matrix (Fin n) (Fin n) ℝ) (t : Fin n → ℝ) : Matrix (Fin (n + 1)) (Fin (n + 1)) ℝ :=
  fun i j => Fin.lastCases (Fin.lastCases c (fun _ => 0) j) (fun i => Fin.lastCases (t i) (fun j => X i j) j) i

/-- `[X, t; 0, 0]`: the generator of a family of affine maps -/
abbrev blk {n : Nat} (X : Matrix (Fin n) (Fin n) ℝ) (t : Fin n → ℝ) := aug 0 X t

/-- `[X, t; 0, 1]`: the homogeneous matrix of the affine map `x ↦ X x + t` -/
abbrev hom {n : Nat} (X : Matrix (Fin n) (Fin n) ℝ) (t : Fin n → ℝ) := aug 1 X t

theorem IsRot.orth' {n : Nat} {m : Matrix (Fin n) (Fin n) ℝ} (h : IsRot m) : mᵀ * m = 1 := mul_eq_one_comm.1 h.orth

end TooN.Lie
