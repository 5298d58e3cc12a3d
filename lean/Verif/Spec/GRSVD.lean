import Verif.Spec.SVD
import Mathlib.Analysis.Real.Sqrt
import Mathlib.Algebra.BigOperators.Fin
/-!
# GR_SVD: what is assumed about the rounding test, and what the results mean
-/
namespace TooN.GRSVD
open Finset
noncomputable section

/-- What `abs(x) + anorm == anorm` may decide: it holds for `x = 0`, and only for `x` below the rounding threshold `ε·anorm`.
With IEEE double arithmetic `ε = 2⁻⁵³`; in exact arithmetic `ε = 0`. -/
structure RoundingTest (negl : ℝ → ℝ → Prop) (ε : ℝ) : Prop where
  zero : ∀ anorm, 0 ≤ anorm → negl anorm 0
  small : ∀ anorm x, 0 ≤ anorm → negl anorm x → x ≤ ε * anorm

/-- the test in exact arithmetic -/
def exactTest : ℝ → ℝ → Prop := fun anorm x => x + anorm = anorm

theorem exactTest_ok : RoundingTest exactTest 0 :=
  ⟨fun a _ => by simp [exactTest], fun a x _ h => by have h : x + a = a := h; linarith⟩

/-- a test with a threshold, as floating point rounding makes it -/
theorem thresholdTest_ok (ε : ℝ) (hε : 0 ≤ ε) : RoundingTest (fun anorm x => x ≤ ε * anorm) ε :=
  ⟨fun a ha => mul_nonneg hε ha, fun a x _ h => h⟩

/-- the Frobenius norm -/
def frob (M N : Nat) (A : Mat ℝ) : ℝ := Real.sqrt (∑ a ∈ range M, ∑ c ∈ range N, A a c ^ 2)

/-- the upper bidiagonal matrix with diagonal `d` and superdiagonal `e 1, …, e k` (zero above) -/
def upperBidiagonal (N : Nat) (d e : Vec ℝ) (k : Nat) : Matrix (Fin N) (Fin N) ℝ :=
  Matrix.of fun a b => if a = b then d a else if (b : Nat) = a + 1 ∧ (b : Nat) ≤ k then e b else 0

end
end TooN.GRSVD
