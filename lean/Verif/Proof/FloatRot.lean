import Verif.Spec.FloatRot
import Verif.Spec.Linear
import Verif.Spec.Lie
import Verif.Model.FloatRot
import Verif.Props.FloatOps
import Mathlib.LinearAlgebra.Matrix.Trace
/-!
# Norm facts and rounding errors of products of stored rotations
-/
set_option linter.unusedSectionVars false
namespace TooN
open Finset
open scoped Matrix

section norms
variable {l m n : ℕ}

attribute [local instance] Matrix.frobeniusNormedAddCommGroup

theorem frob_eq_norm (A : Matrix (Fin m) (Fin n) ℝ) : frob A = ‖A‖ := by
  rw [Matrix.frobenius_norm_def, frob, Real.sqrt_eq_rpow]
  simp

theorem frob_nonneg (A : Matrix (Fin m) (Fin n) ℝ) : 0 ≤ frob A := Real.sqrt_nonneg _

theorem frob_add (A B : Matrix (Fin m) (Fin n) ℝ) : frob (A + B) ≤ frob A + frob B := by
  simp only [frob_eq_norm]; exact norm_add_le _ _

theorem frob_neg (A : Matrix (Fin m) (Fin n) ℝ) : frob (-A) = frob A := by
  simp only [frob_eq_norm]; exact norm_neg _

theorem frob_sub (A B : Matrix (Fin m) (Fin n) ℝ) : frob (A - B) ≤ frob A + frob B := by
  simp only [frob_eq_norm]; exact norm_sub_le _ _

theorem frob_mul (A : Matrix (Fin l) (Fin m) ℝ) (B : Matrix (Fin m) (Fin n) ℝ) : frob (A * B) ≤ frob A * frob B := by
  simp only [frob_eq_norm]; exact Matrix.frobenius_norm_mul A B

theorem frob_transpose (A : Matrix (Fin m) (Fin n) ℝ) : frob Aᵀ = frob A := by
  simp only [frob_eq_norm]; exact Matrix.frobenius_norm_transpose A

theorem frob_sq (A : Matrix (Fin m) (Fin n) ℝ) : frob A ^ 2 = (A * Aᵀ).trace := by
  have h0 : 0 ≤ ∑ i, ∑ j, A i j ^ 2 := sum_nonneg fun i _ => sum_nonneg fun j _ => sq_nonneg _
  rw [frob, Real.sq_sqrt h0, Matrix.trace]
  refine sum_congr rfl fun i _ => ?_
  rw [Matrix.diag_apply, Matrix.mul_apply]
  exact sum_congr rfl fun j _ => by rw [Matrix.transpose_apply]; ring

theorem frob_mul_orth (A : Matrix (Fin m) (Fin n) ℝ) {R : Matrix (Fin n) (Fin n) ℝ} (h : R * Rᵀ = 1) :
    frob (A * R) = frob A := by
  have e : frob (A * R) ^ 2 = frob A ^ 2 := by
    rw [frob_sq, frob_sq, Matrix.transpose_mul, Matrix.mul_assoc, ← Matrix.mul_assoc R, h, Matrix.one_mul]
  exact (pow_left_inj₀ (frob_nonneg _) (frob_nonneg _) two_ne_zero).1 e

theorem frob_orth_mul (A : Matrix (Fin n) (Fin m) ℝ) {R : Matrix (Fin n) (Fin n) ℝ} (h : Rᵀ * R = 1) :
    frob (R * A) = frob A := by
  rw [← frob_transpose, Matrix.transpose_mul, frob_mul_orth _ (by rw [Matrix.transpose_transpose]; exact h), frob_transpose]

theorem frob_orth {R : Matrix (Fin n) (Fin n) ℝ} (h : R * Rᵀ = 1) : frob R = Real.sqrt n := by
  have e : frob R ^ 2 = n := by rw [frob_sq, h, Matrix.trace_one, Fintype.card_fin]
  rw [← e, Real.sqrt_sq (frob_nonneg _)]

theorem frob_mono {A B : Matrix (Fin m) (Fin n) ℝ} (h : ∀ i j, |A i j| ≤ |B i j|) : frob A ≤ frob B :=
  Real.sqrt_le_sqrt (sum_le_sum fun i _ => sum_le_sum fun j _ => sq_le_sq.2 (h i j))

theorem frob_smul (c : ℝ) (hc : 0 ≤ c) (A : Matrix (Fin m) (Fin n) ℝ) : frob (c • A) = c * frob A := by
  rw [frob, frob]
  have : ∑ i, ∑ j, (c • A) i j ^ 2 = c^2 * ∑ i, ∑ j, A i j ^ 2 := by
    rw [mul_sum]; refine sum_congr rfl fun i _ => ?_
    rw [mul_sum]; exact sum_congr rfl fun j _ => by rw [Matrix.smul_apply, smul_eq_mul]; ring
  rw [this, Real.sqrt_mul (sq_nonneg c), Real.sqrt_sq hc]

/-- entrywise absolute value -/
def mabs (A : Matrix (Fin m) (Fin n) ℝ) : Matrix (Fin m) (Fin n) ℝ := Matrix.of fun i j => |A i j|

theorem frob_mabs (A : Matrix (Fin m) (Fin n) ℝ) : frob (mabs A) = frob A := by
  simp [frob, mabs]

theorem abs_le_frob (A : Matrix (Fin m) (Fin n) ℝ) (i : Fin m) (j : Fin n) : |A i j| ≤ frob A := by
  apply Real.le_sqrt_of_sq_le
  rw [sq_abs]
  calc A i j ^ 2 ≤ ∑ j, A i j ^ 2 := single_le_sum (f := fun j => A i j ^ 2) (fun j _ => sq_nonneg _) (mem_univ j)
    _ ≤ _ := single_le_sum (f := fun i => ∑ j, A i j ^ 2) (fun i _ => sum_nonneg fun j _ => sq_nonneg _) (mem_univ i)

/-- a vector as a one-column matrix -/
def colM (v : Fin n → ℝ) : Matrix (Fin n) (Fin 1) ℝ := Matrix.of fun i _ => v i

theorem frob_colM (v : Fin n → ℝ) : frob (colM v) = eucl v := by simp [frob, eucl, colM]
theorem colM_mulVec (A : Matrix (Fin m) (Fin n) ℝ) (v : Fin n → ℝ) : colM (A.mulVec v) = A * colM v := by
  ext i j; simp [colM, Matrix.mulVec, dotProduct, Matrix.mul_apply]
theorem colM_add (v w : Fin n → ℝ) : colM (v + w) = colM v + colM w := by ext; simp [colM]
theorem colM_sub (v w : Fin n → ℝ) : colM (v - w) = colM v - colM w := by ext; simp [colM]

theorem eucl_nonneg (v : Fin n → ℝ) : 0 ≤ eucl v := Real.sqrt_nonneg _
theorem eucl_add (v w : Fin n → ℝ) : eucl (v + w) ≤ eucl v + eucl w := by
  simp only [← frob_colM, colM_add]; exact frob_add _ _
theorem eucl_sub (v w : Fin n → ℝ) : eucl (v - w) ≤ eucl v + eucl w := by
  simp only [← frob_colM, colM_sub]; exact frob_sub _ _
theorem eucl_mulVec (A : Matrix (Fin m) (Fin n) ℝ) (v : Fin n → ℝ) : eucl (A.mulVec v) ≤ frob A * eucl v := by
  simp only [← frob_colM, colM_mulVec]; exact frob_mul _ _
theorem eucl_orth {R : Matrix (Fin n) (Fin n) ℝ} (h : Rᵀ * R = 1) (v : Fin n → ℝ) : eucl (R.mulVec v) = eucl v := by
  simp only [← frob_colM, colM_mulVec]; exact frob_orth_mul _ h
theorem eucl_mono {v w : Fin n → ℝ} (h : ∀ i, |v i| ≤ |w i|) : eucl v ≤ eucl w :=
  Real.sqrt_le_sqrt (sum_le_sum fun i _ => sq_le_sq.2 (h i))
theorem eucl_smul (c : ℝ) (hc : 0 ≤ c) (v : Fin n → ℝ) : eucl (fun i => c * v i) = c * eucl v := by
  rw [← frob_colM, ← frob_colM, ← frob_smul c hc]; congr 1
theorem eucl_abs (v : Fin n → ℝ) : eucl (fun i => |v i|) = eucl v := by simp [eucl]

end norms

namespace FlRot
variable {ρ : Rounding} {n : ℕ}

/-- rounding error of a stored matrix product -/
theorem soMul_err (hn : n * ρ.u < 1) (a b w : Mat (Fl ρ)) :
    frob (asM n n (rmat (soMul n a b w)) - asM n n (rmat a) * asM n n (rmat b)) ≤
      gam ρ.u n * (frob (asM n n (rmat a)) * frob (asM n n (rmat b))) := by
  have hg := gam_nonneg ρ.u_nonneg ρ.u_lt_one hn
  refine le_trans (frob_mono (B := gam ρ.u n • (mabs (asM n n (rmat a)) * mabs (asM n n (rmat b)))) ?_) ?_
  · intro i j
    have h := c61_mulMM n n n hn a b w i j i.2 j.2
    rw [Matrix.sub_apply, Matrix.mul_apply, Matrix.smul_apply, Matrix.mul_apply, smul_eq_mul]
    simp only [asM_apply, mabs, Matrix.of_apply, rmat]
    rw [Finset.sum_range, Finset.sum_range] at h
    refine le_trans h (le_abs_self _)
  · rw [frob_smul _ hg]
    refine mul_le_mul_of_nonneg_left ?_ hg
    refine le_trans (frob_mul _ _) ?_
    rw [frob_mabs, frob_mabs]

theorem soAct_err (hn : n * ρ.u < 1) (a : Mat (Fl ρ)) (v w : Vec (Fl ρ)) :
    eucl (asV n (rvec (soAct n a v w)) - (asM n n (rmat a)).mulVec (asV n (rvec v))) ≤
      gam ρ.u n * (frob (asM n n (rmat a)) * eucl (asV n (rvec v))) := by
  have hg := gam_nonneg ρ.u_nonneg ρ.u_lt_one hn
  refine le_trans (eucl_mono (w := fun i => gam ρ.u n * (mabs (asM n n (rmat a))).mulVec (fun i => |asV n (rvec v) i|) i) ?_) ?_
  · intro i
    have h := (c61_mulMV (ρ := ρ) n n hn hn a v v w).1 i i.2
    rw [Finset.sum_range, Finset.sum_range] at h
    refine le_trans ?_ (le_trans h (le_trans (le_of_eq ?_) (le_abs_self _)))
    · simp [Matrix.mulVec, dotProduct, rvec, rmat, soAct]
    · simp [Matrix.mulVec, dotProduct, rvec, rmat, mabs, abs_mul]
  · rw [eucl_smul _ hg]
    refine mul_le_mul_of_nonneg_left ?_ hg
    refine le_trans (eucl_mulVec _ _) ?_
    rw [frob_mabs, eucl_abs]

/-- one product: errors compound to `1 + e' ≤ (1 + e)(1 + ε)(1 + nγ)` -/
theorem soMul_drift (hn : n * ρ.u < 1) (a b w : Mat (Fl ρ)) (Q R : Matrix (Fin n) (Fin n) ℝ) (hQ : Q * Qᵀ = 1) (hR : R * Rᵀ = 1)
    (e ε : ℝ) (ha : frob (asM n n (rmat a) - Q) ≤ e) (hb : frob (asM n n (rmat b) - R) ≤ ε) :
    1 + frob (asM n n (rmat (soMul n a b w)) - Q * R) ≤ (1 + e) * ((1 + ε) * (1 + n * gam ρ.u n)) := by
  have hg := gam_nonneg ρ.u_nonneg ρ.u_lt_one hn
  have hm := soMul_err hn a b w
  generalize asM n n (rmat (soMul n a b w)) = P at *
  generalize asM n n (rmat a) = A at *
  generalize asM n n (rmat b) = B at *
  generalize gam ρ.u n = g at *
  have he := le_trans (frob_nonneg _) ha
  have hε := le_trans (frob_nonneg _) hb
  have fQ := frob_orth hQ
  have fR := frob_orth hR
  have fA : frob A ≤ Real.sqrt n + e := by
    have := frob_add Q (A - Q); rw [add_sub_cancel, fQ] at this; linarith
  have fB : frob B ≤ Real.sqrt n + ε := by
    have := frob_add R (B - R); rw [add_sub_cancel, fR] at this; linarith
  have e1 : P - Q * R = (P - A * B) + ((A - Q) * R + (A - Q) * (B - R) + Q * (B - R)) := by
    noncomm_ring
  have h1 := frob_add (P - A * B) ((A - Q) * R + (A - Q) * (B - R) + Q * (B - R))
  have h2 := frob_add ((A - Q) * R + (A - Q) * (B - R)) (Q * (B - R))
  have h3 := frob_add ((A - Q) * R) ((A - Q) * (B - R))
  rw [frob_mul_orth _ hR] at h3
  rw [frob_orth_mul _ (mul_eq_one_comm.1 hQ)] at h2
  have h4 := frob_mul (A - Q) (B - R)
  rw [← e1] at h1
  have h5 : frob (A - Q) * frob (B - R) ≤ e * ε := mul_le_mul ha hb (frob_nonneg _) he
  have h6 : frob A * frob B ≤ n * ((1 + e) * (1 + ε)) := by
    rcases Nat.eq_zero_or_pos n with h | h
    · subst h
      have hAz : frob A = 0 := by simp [frob]
      rw [hAz]; simp
    · have h1n : (1:ℝ) ≤ n := by exact_mod_cast h
      have hs : 1 ≤ Real.sqrt n := by rw [Real.one_le_sqrt]; exact h1n
      have hss : Real.sqrt n * Real.sqrt n = n := Real.mul_self_sqrt (by linarith)
      have k1 : Real.sqrt n + e ≤ Real.sqrt n * (1 + e) := by nlinarith
      have k2 : Real.sqrt n + ε ≤ Real.sqrt n * (1 + ε) := by nlinarith
      refine le_trans (mul_le_mul (le_trans fA k1) (le_trans fB k2) (frob_nonneg _) (by positivity)) (le_of_eq ?_)
      linear_combination ((1 + e) * (1 + ε)) * hss
  have h7 := mul_le_mul_of_nonneg_left h6 hg
  nlinarith
end FlRot
end TooN
