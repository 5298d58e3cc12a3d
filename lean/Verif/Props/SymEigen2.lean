import Verif.Spec.SymEigen
import Verif.Proof.Ops
import Mathlib.Tactic.FinCases
import Mathlib.Tactic.LinearCombination
import Mathlib.Tactic.Linarith
import Mathlib.Tactic.Positivity
/-!
# C29: the closed form 2×2 eigendecomposition
-/
namespace TooN.SymEigen
open TooN.LU TooN.Ops TooN.Helpers Matrix

theorem isEigen2 (m V : Mat ℝ) (l : Vec ℝ) (x y : ℝ) (h00 : V 0 0 = x) (h01 : V 0 1 = y) (h10 : V 1 0 = -y)
    (h11 : V 1 1 = x) (hm : m 1 0 = m 0 1) (hxy : x * x + y * y = 1) (e00 : l 0 * (x * x) + l 1 * (y * y) = m 0 0)
    (e01 : (l 0 - l 1) * (x * y) = m 0 1) (e11 : l 0 * (y * y) + l 1 * (x * x) = m 1 1) (hl : l 0 ≤ l 1) :
    IsEigen (asM 2 2 m) (asM 2 2 V) (asV 2 l) := by
  refine ⟨?_, ?_, ?_⟩
  · ext i j
    fin_cases i <;> fin_cases j <;> simp [Matrix.mul_apply, Fin.sum_univ_two, h00, h01, h10, h11] <;> linarith
  · ext i j
    fin_cases i <;> fin_cases j <;> simp [Matrix.mul_apply, Fin.sum_univ_two, h00, h01, h10, h11, hm]
    · linear_combination e00
    · linear_combination e01
    · linear_combination e01
    · linear_combination e11
  · intro i j hij
    fin_cases i <;> fin_cases j <;> simp at hij ⊢ <;> exact hl

/-- **C29** for every symmetric 2×2 matrix and whatever was stored before, `SymEigen<2>` produces orthonormal
eigenvectors (rows), ascending eigenvalues and `Vᵀ diag(l) V = A`; no division by zero happens. -/
theorem c29_compute2 (m eig : Mat ℝ) (ev : Vec ℝ) (hm : m 1 0 = m 0 1) :
    ∃ s, compute2 m eig ev = some s ∧ s.n = 2 ∧
      IsEigen (asM 2 2 m) (asM 2 2 s.evectors) (asV 2 s.evalues) := by
  have hD : (m 0 0 + m 1 1) * (m 0 0 + m 1 1) - 4 * (m 0 0 * m 1 1 - m 0 1 * m 0 1) =
      (m 0 0 - m 1 1) ^ 2 + 4 * (m 0 1) ^ 2 := by ring
  have hD0 : ¬ ((m 0 0 + m 1 1) * (m 0 0 + m 1 1) - 4 * (m 0 0 * m 1 1 - m 0 1 * m 0 1) < 0) := by
    rw [hD]; have := sq_nonneg (m 0 0 - m 1 1); have := sq_nonneg (m 0 1); linarith
  set R := Real.sqrt ((m 0 0 + m 1 1) * (m 0 0 + m 1 1) - 4 * (m 0 0 * m 1 1 - m 0 1 * m 0 1)) with hR
  have hR0 : 0 ≤ R := Real.sqrt_nonneg _
  have hR2 : R * R = (m 0 0 - m 1 1) ^ 2 + 4 * (m 0 1) ^ 2 := by
    rw [hR, Real.mul_self_sqrt (not_lt.1 hD0), hD]
  have hl : (0.5 : ℝ) * (m 0 0 + m 1 1 - R) ≤ 0.5 * (m 0 0 + m 1 1 + R) := by linarith
  unfold compute2
  simp only [if_neg hD0, ← hR]
  simp only [Vec.set_self, Vec.set_ne _ 1 0 _ (by decide)]
  have hchar : (m 0 0 - 0.5 * (m 0 0 + m 1 1 - R)) * (m 1 1 - m 0 0 + (m 0 0 - 0.5 * (m 0 0 + m 1 1 - R))) =
      m 0 1 * m 0 1 := by linear_combination (1/4) * hR2
  have hsum : (0.5 : ℝ) * (m 0 0 + m 1 1 + R) = m 0 0 + m 1 1 - 0.5 * (m 0 0 + m 1 1 - R) := by ring
  generalize (0.5 : ℝ) * (m 0 0 + m 1 1 - R) = l0 at *
  generalize (0.5 : ℝ) * (m 0 0 + m 1 1 + R) = l1 at *
  subst hsum
  have hv0 : ∀ ev : Vec ℝ, Vec.set (Vec.set ev 0 l0) 1 (m 0 0 + m 1 1 - l0) 0 = l0 := fun ev => by
    rw [Vec.set_ne _ _ _ _ (by decide), Vec.set_self]
  have hv1 : ∀ ev : Vec ℝ, Vec.set (Vec.set ev 0 l0) 1 (m 0 0 + m 1 1 - l0) 1 = m 0 0 + m 1 1 - l0 := fun ev =>
    Vec.set_self _ _ _
  by_cases hmag : (m 0 0 - l0) * (m 0 0 - l0) + m 0 1 * m 0 1 = 0
  · have ha0 : m 0 0 - l0 = 0 := by nlinarith [mul_self_nonneg (m 0 0 - l0), mul_self_nonneg (m 0 1)]
    have hb0 : m 0 1 = 0 := by nlinarith [mul_self_nonneg (m 0 0 - l0), mul_self_nonneg (m 0 1)]
    rw [if_pos hmag]
    refine ⟨_, rfl, rfl, ?_⟩
    refine isEigen2 _ _ (Vec.set (Vec.set ev 0 l0) 1 (m 0 0 + m 1 1 - l0)) 1 0 (by simp [Mat.set]) (by simp [Mat.set]) (by simp [Mat.set]) (by simp [Mat.set]) hm
      (by ring) ?_ ?_ ?_ (by rw [hv0, hv1]; exact hl)
    · rw [hv0]; linarith
    · rw [hb0]; ring
    · rw [hv1]; linarith
  · rw [if_neg hmag]
    have hpos : 0 < (m 0 0 - l0) * (m 0 0 - l0) + m 0 1 * m 0 1 :=
      lt_of_le_of_ne (add_nonneg (mul_self_nonneg _) (mul_self_nonneg _)) (Ne.symm hmag)
    have hs0 : Real.sqrt ((m 0 0 - l0) * (m 0 0 - l0) + m 0 1 * m 0 1) ≠ 0 := by
      rw [Ne, Real.sqrt_eq_zero hpos.le]; exact hmag
    rw [if_neg hs0]
    have hsq := Real.mul_self_sqrt hpos.le
    generalize Real.sqrt ((m 0 0 - l0) * (m 0 0 - l0) + m 0 1 * m 0 1) = q at *
    have hs2 : 1 / q * (1 / q) * ((m 0 0 - l0) * (m 0 0 - l0) + m 0 1 * m 0 1) = 1 := by
      rw [← hsq]; field_simp
    generalize 1 / q = s at *
    refine ⟨_, rfl, rfl, ?_⟩
    refine isEigen2 _ _ (Vec.set (Vec.set ev 0 l0) 1 (m 0 0 + m 1 1 - l0)) (-(m 0 1) * s) ((m 0 0 - l0) * s) (by simp [Mat.set, forN]) (by simp [Mat.set, forN])
      (by simp [Mat.set, forN]) (by simp [Mat.set, forN]) hm ?_ ?_ ?_ ?_ (by rw [hv0, hv1]; exact hl)
    · linear_combination hs2
    · rw [hv0, hv1]; linear_combination m 0 0 * hs2 + s * s * (m 0 0 - l0) * hchar
    · rw [hv0, hv1]; linear_combination m 0 1 * hs2 + s * s * m 0 1 * hchar
    · rw [hv0, hv1]; linear_combination m 1 1 * hs2 - s * s * (m 0 0 - l0) * hchar

/-- a concrete case: the eigenvalues of `[[2, 1], [1, 2]]` are `1` and `3` -/
example : ∃ s, compute2 (fun r c => if r = c then 2 else 1) (fun _ _ => 7) (fun _ => 7) = some s ∧
    s.evalues 0 = 1 ∧ s.evalues 1 = 3 := by
  have h4 : Real.sqrt 4 = 2 := by rw [show (4:ℝ) = 2 * 2 by norm_num]; exact Real.sqrt_mul_self (by norm_num)
  obtain ⟨s, hs, _⟩ := c29_compute2 (fun r c => if r = c then 2 else 1) (fun _ _ => 7) (fun _ => 7) rfl
  refine ⟨s, hs, ?_⟩
  unfold compute2 at hs
  norm_num [h4, Vec.set] at hs
  subst hs
  simp [Vec.set]

end TooN.SymEigen
