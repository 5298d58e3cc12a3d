import Mathlib.Analysis.Matrix.Spectrum
import Mathlib.Data.Fin.Tuple.Sort
import Mathlib.Analysis.InnerProductSpace.PiL2
/-!
# Existence of real eigen- and singular value decompositions

Used only to show that the LAPACK contracts in `Spec/` can be met.
-/
namespace TooN.Spectral
open Matrix

/-- every real symmetric matrix has an orthonormal eigendecomposition with ascending eigenvalues -/
theorem sym_eig_exists (n : Nat) (B : Matrix (Fin n) (Fin n) ℝ) (hB : Bᵀ = B) :
    ∃ (Q : Matrix (Fin n) (Fin n) ℝ) (l : Fin n → ℝ), Qᵀ * Q = 1 ∧ Q * Qᵀ = 1 ∧ B = Q * diagonal l * Qᵀ ∧
      Monotone l := by
  have hH : B.IsHermitian := by rw [IsHermitian, conjTranspose_eq_transpose_of_trivial]; exact hB
  let P : Matrix (Fin n) (Fin n) ℝ := hH.eigenvectorUnitary
  let l := hH.eigenvalues
  have hP1 : Pᵀ * P = 1 := by
    have := Unitary.coe_star_mul_self hH.eigenvectorUnitary
    rwa [star_eq_conjTranspose, conjTranspose_eq_transpose_of_trivial] at this
  have hspec : B = P * diagonal l * Pᵀ := by
    have := hH.spectral_theorem
    rw [Unitary.conjStarAlgAut_apply, star_eq_conjTranspose, conjTranspose_eq_transpose_of_trivial] at this
    exact this
  let σ := Tuple.sort l
  let Q : Matrix (Fin n) (Fin n) ℝ := P.submatrix id σ
  have hQ1 : Qᵀ * Q = 1 := by
    have : Qᵀ * Q = (Pᵀ * P).submatrix σ σ := by ext i j; simp [Q, Matrix.mul_apply]
    rw [this, hP1, submatrix_one_equiv]
  refine ⟨Q, l ∘ σ, hQ1, mul_eq_one_comm.1 hQ1, ?_, Tuple.monotone_sort l⟩
  rw [hspec]
  ext i j
  rw [Matrix.mul_apply, Matrix.mul_apply]
  simp only [Matrix.mul_diagonal, transpose_apply, Q, submatrix_apply, id, Function.comp]
  exact (Equiv.sum_comp σ (fun k => P i k * l k * P j k)).symm

/-- every tall real matrix has a (thin) singular value decomposition -/
theorem svd_exists_tall (r c : Nat) (hrc : c ≤ r) (A : Matrix (Fin r) (Fin c) ℝ) :
    ∃ (U : Matrix (Fin r) (Fin c) ℝ) (s : Fin c → ℝ) (VT : Matrix (Fin c) (Fin c) ℝ),
      U * diagonal s * VT = A ∧ Uᵀ * U = 1 ∧ VT * VTᵀ = 1 ∧ (∀ i, 0 ≤ s i) ∧ (∀ i j, i ≤ j → s j ≤ s i) := by
  obtain ⟨Q, l, hQ1, hQ2, hB, hl⟩ := sym_eig_exists c (-(Aᵀ * A)) (by simp [transpose_mul])
  -- W = A Q has orthogonal columns
  let W := A * Q
  have hW : Wᵀ * W = diagonal (fun i => - l i) := by
    have e : Qᵀ * (-(Aᵀ * A)) * Q = diagonal l := by
      rw [hB]
      calc Qᵀ * (Q * diagonal l * Qᵀ) * Q = (Qᵀ * Q) * diagonal l * (Qᵀ * Q) := by simp only [Matrix.mul_assoc]
        _ = diagonal l := by rw [hQ1]; simp
    have : Wᵀ * W = -(Qᵀ * (-(Aᵀ * A)) * Q) := by
      simp only [W, transpose_mul, Matrix.mul_neg, Matrix.neg_mul, neg_neg, Matrix.mul_assoc]
    rw [this, e]
    ext i j; by_cases h : i = j
    · subst h; simp
    · simp [h]
  have hdot : ∀ i j, ∑ k, W k i * W k j = if i = j then - l i else 0 := by
    intro i j
    have := congrFun (congrFun hW i) j
    rw [Matrix.mul_apply, diagonal_apply] at this
    simpa using this
  have hnn : ∀ i, 0 ≤ - l i := by
    intro i
    have := hdot i i
    rw [if_pos rfl] at this
    rw [← this]
    exact Finset.sum_nonneg (fun k _ => mul_self_nonneg _)
  let s : Fin c → ℝ := fun i => Real.sqrt (- l i)
  have hs2 : ∀ i, s i * s i = - l i := fun i => Real.mul_self_sqrt (hnn i)
  -- the normalised nonzero columns, extended to an orthonormal basis
  let v : Fin r → EuclideanSpace ℝ (Fin r) := fun i =>
    if h : (i : Nat) < c then WithLp.toLp 2 (fun k => W k ⟨i, h⟩ / s ⟨i, h⟩) else 0
  let S : Set (Fin r) := {i | ∃ h : (i : Nat) < c, s ⟨i, h⟩ ≠ 0}
  have hv : Orthonormal ℝ (S.domRestrict v) := by
    rw [orthonormal_iff_ite]
    rintro ⟨i, hi, hi0⟩ ⟨j, hj, hj0⟩
    simp only [Set.domRestrict_apply, v, dif_pos hi, dif_pos hj, Subtype.mk.injEq]
    rw [EuclideanSpace.inner_eq_star_dotProduct]
    simp only [dotProduct, star_trivial]
    have : ∑ k, W k ⟨j, hj⟩ / s ⟨j, hj⟩ * (W k ⟨i, hi⟩ / s ⟨i, hi⟩) =
        (∑ k, W k ⟨i, hi⟩ * W k ⟨j, hj⟩) / (s ⟨i, hi⟩ * s ⟨j, hj⟩) := by
      rw [Finset.sum_div]
      refine Finset.sum_congr rfl (fun k _ => ?_)
      field_simp
    rw [show (∑ k, _) = ∑ k, W k ⟨j, hj⟩ / s ⟨j, hj⟩ * (W k ⟨i, hi⟩ / s ⟨i, hi⟩) from rfl, this, hdot]
    by_cases e : i = j
    · subst e
      rw [if_pos rfl, if_pos rfl, hs2]
      rw [← hs2]
      exact div_self (mul_ne_zero hi0 hi0)
    · rw [if_neg e, if_neg (fun h => e (Fin.ext (by simpa using h))), zero_div]
  obtain ⟨b, hb⟩ := hv.exists_orthonormalBasis_extension_of_card_eq (by simp)
  let U : Matrix (Fin r) (Fin c) ℝ := Matrix.of fun k i => b ⟨i, lt_of_lt_of_le i.2 hrc⟩ k
  have hUs : U * diagonal s = W := by
    ext k i
    rw [Matrix.mul_diagonal]
    by_cases h0 : s i = 0
    · rw [h0, mul_zero]
      have := hdot i i
      rw [if_pos rfl, ← hs2, h0, mul_zero] at this
      have h2 := (Finset.sum_eq_zero_iff_of_nonneg (fun k _ => mul_self_nonneg (W k i))).1 this k (Finset.mem_univ _)
      exact (mul_self_eq_zero.1 h2).symm
    · have := hb ⟨i, lt_of_lt_of_le i.2 hrc⟩ ⟨i.2, h0⟩
      have h1 : U k i = W k i / s i := by
        show b ⟨i, _⟩ k = _
        rw [this]
        simp only [v]
        rw [dif_pos i.2]
      rw [h1]; exact div_mul_cancel₀ _ h0
  refine ⟨U, s, Qᵀ, ?_, ?_, ?_, fun i => Real.sqrt_nonneg _, ?_⟩
  · rw [hUs]
    show A * Q * Qᵀ = A
    rw [Matrix.mul_assoc, hQ2, Matrix.mul_one]
  · ext i j
    rw [Matrix.mul_apply, Matrix.one_apply]
    have h := orthonormal_iff_ite.1 b.orthonormal ⟨j, lt_of_lt_of_le j.2 hrc⟩ ⟨i, lt_of_lt_of_le i.2 hrc⟩
    rw [EuclideanSpace.inner_eq_star_dotProduct] at h
    have h2 : ∑ k, Uᵀ i k * U k j = if (⟨j, lt_of_lt_of_le j.2 hrc⟩ : Fin r) = ⟨i, lt_of_lt_of_le i.2 hrc⟩ then 1 else 0 := by
      rw [← h]; rfl
    rw [h2]
    by_cases e : i = j
    · subst e; simp
    · rw [if_neg e, if_neg]
      intro h3
      exact e (Fin.ext (by simpa using h3.symm))
  · rw [transpose_transpose]; exact hQ1
  · intro i j hij
    exact Real.sqrt_le_sqrt (neg_le_neg (hl hij))

end TooN.Spectral
