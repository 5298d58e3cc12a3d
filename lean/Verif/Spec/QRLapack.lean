import Verif.Model.QRLapack
import Verif.Spec.Linear
import Mathlib.Data.Matrix.Mul
import Mathlib.Algebra.BigOperators.Group.Finset.Basic
/-!
# Contracts of geqp3 and orgqr (LAPACK documentation)

`Q = H(1) H(2) … H(k)`, `H(i) = I - tau(i) v vᵀ` with `v(1:i-1) = 0`, `v(i) = 1` and `v(i+1:m)` stored in `A(i+1:m, i)`
(here 0-based).
-/
namespace TooN.QRLapack
open LU (Buf fview)
noncomputable section

/-- the vector of the `i`-th elementary reflector, stored below the diagonal of `a` -/
def hvec (a : Mat ℝ) (i r : Nat) : ℝ := if r < i then 0 else if r = i then 1 else a r i

/-- the `i`-th elementary reflector of order `m` -/
def refl (m : Nat) (a : Mat ℝ) (tau : Vec ℝ) (i : Nat) : Matrix (Fin m) (Fin m) ℝ :=
  1 - Matrix.of fun r c : Fin m => tau i * hvec a i r * hvec a i c

/-- the product `H(0) H(1) … H(k-1)` of order `m` -/
def reflProd (m : Nat) (a : Mat ℝ) (tau : Vec ℝ) : Nat → Matrix (Fin m) (Fin m) ℝ
  | 0 => 1
  | k + 1 => reflProd m a tau k * refl m a tau k

/-- the upper trapezoid stored in `a` -/
def upperTrap (m n : Nat) (a : Mat ℝ) : Matrix (Fin m) (Fin n) ℝ := Matrix.of fun r c => if (r : Nat) ≤ c then a r c else 0

structure LapackOK (lp : Lapack) : Prop where
  /-- `A P = Q R`: "if `JPVT(J) = K`, then the `J`-th column of `A*P` was the `K`-th column of `A`" -/
  geqp3 : ∀ m n (A : Buf ℝ) jpvt, ∀ a jp tau, lp.geqp3 m n A m jpvt = (a, jp, tau) →
    (reflProd m (fview m a) tau (min m n)).transpose * reflProd m (fview m a) tau (min m n) = 1 ∧
    (∀ j, j < n → 1 ≤ jp j ∧ jp j ≤ n) ∧ (∀ j j', j < n → j' < n → jp j = jp j' → j = j') ∧
    (∀ r : Fin m, ∀ j : Fin n, (reflProd m (fview m a) tau (min m n) * upperTrap m n (fview m a)) r j = fview m A r (jp j - 1))
  /-- columns with nonzero `JPVT` are permuted to the front: nothing moves if all are nonzero -/
  geqp3_fixed : ∀ m n (A : Buf ℝ) jpvt, (∀ j, j < n → jpvt j ≠ 0) → ∀ j, j < n → (lp.geqp3 m n A m jpvt).2.1 j = j + 1
  /-- all columns free: column pivoting -/
  geqp3_free : ∀ m n (A : Buf ℝ) jpvt, (∀ j, j < n → jpvt j = 0) → ∀ i j, i ≤ j → j < m → j < n →
    |fview m (lp.geqp3 m n A m jpvt).1 j j| ≤ |fview m (lp.geqp3 m n A m jpvt).1 i i|
  /-- "the first N columns of a product of K elementary reflectors of order M as returned by geqrf" (here `M = N = K`) -/
  orgqr : ∀ k (A : Buf ℝ) (tau : Buf ℝ), asM k k (fview k (lp.orgqr k k k A k tau)) = reflProd k (fview k A) tau k

end
end TooN.QRLapack
