import Verif.Proof.Det
import Mathlib.LinearAlgebra.Matrix.NonsingularInverse
import Mathlib.Data.Rat.Defs
import Mathlib.Algebra.Order.Ring.Rat
import Mathlib.Tactic.NormNum
/-!
# C16, C17, C18: Gauss–Jordan, Gaussian elimination, determinant

Exact arithmetic over any linearly ordered field.  `none` = the program divided by zero.
`asM r c A` is the leading `r × c` block of the stored matrix as a Mathlib matrix.
-/
namespace TooN.Elim
open Finset
variable {K : Type _} [Field K] [LinearOrder K] [IsStrictOrderedRing K]

/-- the columns `n … C-1` of a stored matrix -/
private theorem sum_asM (n k : Nat) (A X : Mat K) (i : Fin n) (j : Fin k) :
    (asM n n A * asM n k X) i j = ∑ c ∈ range n, A i c * X c j := by
  rw [Matrix.mul_apply, ← Fin.sum_univ_eq_sum_range (fun c => A i c * X c j) n]
  rfl

/-- **C16** On every `n × (n+k)` matrix `[A | B]` with `det A ≠ 0`, `gauss_jordan` runs without dividing
by zero, ends with `[I | X]` where `A * X = B`, and writes nothing outside the matrix. -/
theorem c16_gauss_jordan_solves (n k : Nat) (M : Mat K) (hdet : (asM n n M).det ≠ 0) :
    ∃ M', gaussJordan n (n+k) M = some M' ∧
      asM n n M' = 1 ∧
      asM n n M * asM n k (fun r c => M' r (n+c)) = asM n k (fun r c => M r (n+c)) ∧
      (∀ r c, ¬ (r < n ∧ c < n + k) → M' r c = M r c) := by
  have ht := (trivial_iff_det n M).2 hdet
  obtain ⟨m1, e1, hinv, hk, hfr, hd⟩ := gjColumns_total n (n+k) (by omega) M ht
  obtain ⟨s1, s2, s3⟩ := gjScaled_spec n (n+k) (by omega) m1 hinv hd
  refine ⟨gjScaled n (n+k) n m1, ?_, ?_, ?_, ?_⟩
  · rw [gaussJordan, e1, Option.bind_some, gjFinal_some n (n+k) m1 n (le_refl _) hd]
  · ext i j
    rw [asM_apply, s1 i j i.2 j.2, Matrix.one_apply]
    by_cases h : i = j
    · rw [if_pos h, if_pos (congrArg _ h)]
    · rw [if_neg h, if_neg (fun hh => h (Fin.ext hh))]
  · ext i j
    rw [sum_asM]
    exact solve_of_ker n (n+k) M _ (fun w => (s2 w).trans (hk w)) s1 (n+j) (by omega)
      (by have := j.2; omega) i i.2
  · intro r c h; rw [s3 r c h, hfr r c h]

/-- **C16** and it divides by zero exactly on singular left blocks. -/
theorem c16_gauss_jordan_fails_iff_singular (n k : Nat) (M : Mat K) :
    gaussJordan n (n+k) M = none ↔ (asM n n M).det = 0 := by
  constructor
  · intro h
    by_contra hd
    obtain ⟨M', h', -⟩ := c16_gauss_jordan_solves n k M hd
    rw [h] at h'; cases h'
  · intro hd
    cases h : gaussJordan n (n+k) M with
    | none => rfl
    | some M' =>
      exfalso
      unfold gaussJordan at h
      cases h1 : forNM n (gjColumn n (n+k)) M with
      | none => rw [h1] at h; cases h
      | some m1 =>
        rw [h1, Option.bind_some] at h
        obtain ⟨hinv, hk⟩ := gjColumns_partial n (n+k) (by omega) M m1 h1
        have hd1 := gjFinal_diag_ne n (n+k) m1 M' n (le_refl _) h
        obtain ⟨s1, s2, -⟩ := gjScaled_spec n (n+k) (by omega) m1 hinv hd1
        have t1 := trivial_of_id n _ s1
        have t2 := trivial_of_ker (by omega : n ≤ n + k)
          (fun w => ((s2 w).trans (hk w)).symm) t1
        exact (trivial_iff_det n M).1 t2 hd

/-- **C16** the documented use: `[A | I]` becomes `[I | A⁻¹]`. -/
theorem c16_gauss_jordan_inverse (n : Nat) (M : Mat K) (hdet : (asM n n M).det ≠ 0)
    (hI : asM n n (fun r c => M r (n+c)) = 1) :
    ∃ M', gaussJordan n (n+n) M = some M' ∧ asM n n M' = 1 ∧
      asM n n (fun r c => M' r (n+c)) = (asM n n M)⁻¹ := by
  obtain ⟨M', h1, h2, h3, -⟩ := c16_gauss_jordan_solves n n M hdet
  refine ⟨M', h1, h2, ?_⟩
  rw [hI] at h3
  exact (Matrix.inv_eq_right_inv h3).symm

/-- the concrete matrix `[[0,2 | 1,0],[3,1 | 0,1]]` (needs a row swap) meets the hypotheses -/
def exM : Mat ℚ := fun r c => if r = 0 then (if c = 1 then 2 else if c = 2 then 1 else 0)
  else if r = 1 then (if c = 0 then 3 else if c = 2 then 0 else 1) else 0
example : (asM 2 2 exM).det ≠ 0 ∧ asM 2 2 (fun r c => exM r (2+c)) = 1 := by
  constructor
  · rw [Matrix.det_fin_two]; simp [exM]
  · ext i j; fin_cases i <;> fin_cases j <;> simp [exM]

/-- **C17** `gaussian_elimination(A,B)` on an invertible `n × n` matrix never divides by zero and returns
`X` with `A X = B`, whatever the uninitialised contents `x` of the result object. -/
theorem c17_gaussian_elimination_solves (n k : Nat) (A B x : Mat K) (hdet : (asM n n A).det ≠ 0) :
    ∃ X, gaussElim n k A B x = some X ∧ asM n n A * asM n k X = asM n k B := by
  obtain ⟨X, h1, h2⟩ := gaussElim_solves n k A B x ((trivial_iff_det n A).2 hdet)
  refine ⟨X, h1, ?_⟩
  ext i j
  rw [sum_asM]
  exact h2 i j i.2 j.2

/-- **C17** vector right-hand side. -/
theorem c17_gaussian_elimination_vector (n : Nat) (A : Mat K) (b : Vec K) (x : Mat K)
    (hdet : (asM n n A).det ≠ 0) :
    ∃ y, gaussElimV n A b x = some y ∧ (asM n n A).mulVec (asV n y) = asV n b := by
  obtain ⟨X, h1, h2⟩ := gaussElim_solves n 1 A (fun i _ => b i) x ((trivial_iff_det n A).2 hdet)
  refine ⟨fun i => X i 0, by rw [gaussElimV, h1]; rfl, ?_⟩
  funext i
  have := h2 i 0 i.2 (by omega)
  rw [← Fin.sum_univ_eq_sum_range (fun c => A i c * X c 0) n] at this
  exact this

/-- **C17** it divides by zero exactly on singular matrices; the solution is `A⁻¹ B`. -/
theorem c17_gaussian_elimination_fails_iff_singular (n k : Nat) (A B x : Mat K) :
    gaussElim n k A B x = none ↔ (asM n n A).det = 0 := by
  constructor
  · intro h
    by_contra hd
    obtain ⟨X, h', -⟩ := c17_gaussian_elimination_solves n k A B x hd
    rw [h] at h'; cases h'
  · intro hd
    cases h : gaussElim n k A B x with
    | none => rfl
    | some X => exact absurd hd ((trivial_iff_det n A).1 (gaussElim_some_trivial n k A B x X h))

theorem c17_gaussian_elimination_eq_inv_mul (n k : Nat) (A B x X : Mat K)
    (h : gaussElim n k A B x = some X) : asM n k X = (asM n n A)⁻¹ * asM n k B := by
  have hd : (asM n n A).det ≠ 0 := fun h0 => by
    rw [(c17_gaussian_elimination_fails_iff_singular n k A B x).2 h0] at h; cases h
  obtain ⟨X', h1, h2⟩ := c17_gaussian_elimination_solves n k A B x hd
  rw [h] at h1; cases h1
  rw [← h2, ← Matrix.mul_assoc, Matrix.nonsing_inv_mul _ (isUnit_iff_ne_zero.2 hd), Matrix.one_mul]

example : ∃ X, gaussElim 2 2 exM (fun r c => exM r (2+c)) (fun _ _ => 77) = some X ∧
    asM 2 2 exM * asM 2 2 X = 1 := by
  have hd : (asM 2 2 exM).det ≠ 0 := by rw [Matrix.det_fin_two]; simp [exM]
  have hI : asM 2 2 (fun r c => exM r (2+c)) = 1 := by
    ext i j; fin_cases i <;> fin_cases j <;> simp [exM]
  obtain ⟨X, h1, h2⟩ := c17_gaussian_elimination_solves 2 2 exM (fun r c => exM r (2+c)) (fun _ _ => 77) hd
  exact ⟨X, h1, by rw [h2, hI]⟩

/-- **C18** `determinant_gaussian_elimination` returns the determinant of every square matrix, singular
or not, and never divides by zero. -/
theorem c18_determinant_gaussian_elimination (n : Nat) (A : Mat K) :
    detGauss n A = some (asM n n A).det := detGauss_correct n A

/-- **C18** `determinant` (with its special 2×2 formula). -/
theorem c18_determinant (n : Nat) (A : Mat K) : determinant n A = some (asM n n A).det := by
  unfold determinant
  by_cases h : n = 2
  · subst h
    rw [if_pos rfl, Matrix.det_fin_two]
    simp only [asM_apply, Fin.val_zero, Fin.val_one]
    congr 1; ring
  · rw [if_neg h]; exact detGauss_correct n A

/-- a 3×3 matrix that takes a row swap in the first step: determinant -1 (a permutation matrix), and a
singular one. -/
example : detGauss 3 (fun r c => if (r = 0 ∧ c = 1) ∨ (r = 1 ∧ c = 0) ∨ (r = 2 ∧ c = 2) then (1:ℚ) else 0) = some (-1) := by
  rw [c18_determinant_gaussian_elimination, Matrix.det_fin_three]
  simp
example : detGauss 3 (fun _ _ => (1:ℚ)) = some 0 := by
  rw [c18_determinant_gaussian_elimination, Matrix.det_fin_three]
  simp

end TooN.Elim
