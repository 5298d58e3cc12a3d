import Verif.Model.SO
import Verif.Spec.Lie
import Verif.Proof.LieExp
import Mathlib.Tactic.Linarith
import Mathlib.LinearAlgebra.Matrix.DotProduct
/-!
# Facts about `unit` and rotations
-/
set_option linter.unusedSectionVars false
namespace TooN.Lie
open Matrix

theorem dot_self_nonneg {n : Nat} (v : V n) : 0 ≤ v ⬝ᵥ v := by
  unfold dotProduct; exact Finset.sum_nonneg fun i _ => mul_self_nonneg _

theorem dot_self_eq_zero {n : Nat} (v : V n) : v ⬝ᵥ v = 0 ↔ v = 0 := dotProduct_self_eq_zero

theorem dot_self_pos {n : Nat} {v : V n} (h : v ≠ 0) : 0 < v ⬝ᵥ v :=
  lt_of_le_of_ne (dot_self_nonneg v) (fun e => h ((dot_self_eq_zero v).1 e.symm))

theorem unitV_of_ne {n : Nat} {v : V n} (h : v ≠ 0) :
    ∃ k : ℝ, 0 < k ∧ k * k * (v ⬝ᵥ v) = 1 ∧ unitV v = some (k • v) := by
  have hp := Real.sqrt_pos.2 (dot_self_pos h)
  refine ⟨1 / Real.sqrt (v ⬝ᵥ v), by positivity, ?_, ?_⟩
  · have := Real.mul_self_sqrt (dot_self_nonneg v)
    field_simp
    rw [pow_two, this]
  · unfold unitV; rw [if_neg hp.ne']

theorem unitV_zero {n : Nat} : unitV (0 : V n) = none := by unfold unitV; simp

theorem unitV_eq_none {n : Nat} (v : V n) : unitV v = none ↔ v = 0 := by
  constructor
  · intro h
    by_contra hv
    obtain ⟨k, -, -, e⟩ := unitV_of_ne hv
    rw [e] at h; nomatch h
  · rintro rfl; exact unitV_zero

theorem unitV_of_unit {n : Nat} {v : V n} (h : v ⬝ᵥ v = 1) : unitV v = some v := by
  unfold unitV; rw [h, Real.sqrt_one, if_neg one_ne_zero, div_one, one_smul]

end TooN.Lie
