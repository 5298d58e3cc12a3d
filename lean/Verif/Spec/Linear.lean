import Verif.Model.Loop
import Mathlib.Data.Matrix.Mul
/-!
# Bridge to Mathlib's linear algebra

The algorithm models store a matrix as a total function `Nat → Nat → K` of which only the first
`r` rows and `c` columns are meaningful.  `asM r c A` is that meaningful part as a Mathlib matrix,
`asV n v` as a Mathlib vector.  Specifications are stated with these and Mathlib's `*`, `⁻¹`, `det`.
-/
namespace TooN
variable {K : Type _}

/-- The leading `r × c` block of `A` as a mathematical matrix. -/
def asM (r c : Nat) (A : Mat K) : Matrix (Fin r) (Fin c) K := Matrix.of fun i j => A i j

/-- The first `n` elements of `v` as a mathematical vector. -/
def asV (n : Nat) (v : Vec K) : Fin n → K := fun i => v i

@[simp] theorem asM_apply (r c : Nat) (A : Mat K) (i : Fin r) (j : Fin c) : asM r c A i j = A i j := rfl
@[simp] theorem asV_apply (n : Nat) (v : Vec K) (i : Fin n) : asV n v i = v i := rfl

/-- Two stored matrices agree on the leading `r × c` block. -/
theorem asM_eq_iff (r c : Nat) (A B : Mat K) :
    asM r c A = asM r c B ↔ ∀ i j, i < r → j < c → A i j = B i j := by
  constructor
  · intro h i j hi hj
    have := congrFun (congrFun h ⟨i, hi⟩) ⟨j, hj⟩
    simpa using this
  · intro h; ext i j; exact h i j i.2 j.2

theorem asV_eq_iff (n : Nat) (v w : Vec K) : asV n v = asV n w ↔ ∀ i, i < n → v i = w i := by
  constructor
  · intro h i hi; exact congrFun h ⟨i, hi⟩
  · intro h; funext i; exact h i i.2

end TooN
