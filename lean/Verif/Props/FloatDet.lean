import Verif.Proof.FloatDet
import Verif.Spec.Linear
/-!
# C64: rounding errors of `determinant`
-/
set_option linter.unusedSectionVars false
namespace TooN.Elim
open Finset
variable {ρ : Rounding}

/-- **C64** `determinant_gaussian_elimination(A)` always returns (it never divides by zero), and the result is, up to
`n` roundings, the exact determinant of a matrix that differs from `A` entry by entry by at most
`γ_{n+1} 2^n (1+u)^{2n} max|A|`. -/
theorem c64_determinant_gauss (n : ℕ) (hu : ((n + 1 : ℕ) : ℝ) * ρ.u < 1) (A : Mat (Fl ρ))
    (M : ℝ) (hM : ∀ r c, r < n → c < n → |(A r c).val| ≤ M) :
    ∃ d, detGauss n A = some d ∧ ∃ (E : Matrix (Fin n) (Fin n) ℝ) (δ : ℝ),
      (∀ r c, |E r c| ≤ gam ρ.u (n+1) * (2^n * (1+ρ.u)^(2*n) * M)) ∧ |δ| ≤ gam ρ.u n ∧
      d.val = (asM n n (rmat A) + E).det * (1 + δ) := by
  have h0 := ρ.u_nonneg
  have h1 := ρ.u_lt_one
  have hun : (n : ℝ) * ρ.u < 1 :=
    lt_of_le_of_lt (mul_le_mul_of_nonneg_right (by exact_mod_cast (by omega : n ≤ n+1)) h0) hu
  have hinv := fdet_inv n A
  unfold detGauss
  cases hq : forN n (detStep n) (.run A 1) with
  | divZero => rw [hq] at hinv; exact hinv.elim
  | run B d =>
    rw [hq] at hinv
    obtain ⟨σ, L, V, hI, -, hG, f, hf, ed⟩ := hinv
    let N : Matrix (Fin n) (Fin n) ℝ := Matrix.of (fun r k : Fin n => L r k) * Matrix.of (fun k c : Fin n => V k c)
    have hN : ∀ r c : Fin n, N r c = ∑ k ∈ range n, L r k * V k c := by
      intro r c
      simp only [N, Matrix.mul_apply, Matrix.of_apply]
      exact Fin.sum_univ_eq_sum_range (fun k => L r k * V k c) n
    refine ⟨d, rfl, N.submatrix (σ.symm) id - asM n n (rmat A), f - 1, ?_, hf.gam h0 h1 hun, ?_⟩
    · intro r c
      have hM0 : 0 ≤ M := le_trans (abs_nonneg _) (hM r c r.2 c.2)
      have := dist_bound n n hu le_rfl _ _ σ L V hI M hM0 (hG M hM) (σ.symm r) c c.2
      rw [if_neg (by omega), add_zero, Equiv.apply_symm_apply] at this
      rw [Matrix.sub_apply, Matrix.submatrix_apply, hN]
      exact this
    · have e1 : asM n n (rmat A) + (N.submatrix (σ.symm) id - asM n n (rmat A)) = N.submatrix (σ.symm) id := by abel
      rw [e1, Matrix.det_permute, Matrix.det_mul, Equiv.Perm.sign_symm, ed]
      have e2 : (Matrix.of (fun r k : Fin n => L r k)).det = 1 := by
        rw [Matrix.det_of_lowerTriangular _ (by
          intro i j hij
          exact hI.tri _ _ (by simpa using hij))]
        exact prod_eq_one fun k _ => hI.one k k.2
      have e3 : (Matrix.of (fun r k : Fin n => V r k)).det = ∏ k ∈ range n, V k k := by
        rw [Matrix.det_of_upperTriangular (by
          intro i j hij
          exact hI.upp _ _ (by simpa using hij))]
        exact Fin.prod_univ_eq_prod_range (fun k => V k k) n
      rw [e2, e3]; push_cast; ring
  | ret d =>
    rw [hq] at hinv
    obtain ⟨hd, i, hi, B, σ, L, V, hI, hG, hz⟩ := hinv
    let N : Matrix (Fin n) (Fin n) ℝ := fun r c =>
      ∑ k ∈ range i, L r k * V k c + (if i ≤ r.val ∧ i ≤ c.val then rmat B r c else 0)
    refine ⟨d, rfl, N.submatrix (σ.symm) id - asM n n (rmat A), 0, ?_, by rw [abs_zero]; exact gam_nonneg h0 h1 hun, ?_⟩
    · intro r c
      have hM0 : 0 ≤ M := le_trans (abs_nonneg _) (hM r c r.2 c.2)
      have := dist_bound n i hu hi.le _ _ σ L V hI M hM0 (hG M hM) (σ.symm r) c c.2
      rw [Equiv.apply_symm_apply] at this
      exact this
    · have e1 : asM n n (rmat A) + (N.submatrix (σ.symm) id - asM n n (rmat A)) = N.submatrix (σ.symm) id := by abel
      obtain ⟨z, z1, z2, z3⟩ := exists_kernel i (fun k c => V k c / V k k)
      have hdet : N.det = 0 := by
        refine Matrix.exists_mulVec_eq_zero_iff.1 ⟨fun c => z c, ?_, ?_⟩
        · intro h
          have := congrFun h ⟨i, hi⟩
          simp only [Pi.zero_apply] at this
          rw [z1] at this; exact one_ne_zero this
        · funext r
          simp only [Matrix.mulVec, dotProduct, Pi.zero_apply]
          have e2 : ∀ c : Fin n, N r c * z c = (fun c : ℕ => ∑ k ∈ range i, L r k * (V k c * z c) +
              (if i ≤ r.val ∧ i ≤ c then rmat B r c else 0) * z c) c := by
            intro c
            simp only [N]
            rw [add_mul, sum_mul]
            congr 1
            exact sum_congr rfl fun k _ => by ring
          rw [Fintype.sum_congr _ _ e2, Fin.sum_univ_eq_sum_range (fun c : ℕ => ∑ k ∈ range i, L r k * (V k c * z c) +
              (if i ≤ r.val ∧ i ≤ c then rmat B r c else 0) * z c) n, sum_add_distrib, sum_comm]
          have e3 : ∀ k ∈ range i, ∑ c ∈ range n, L r k * (V k c * z c) = 0 := by
            intro k hk
            have hk := mem_range.1 hk
            have hv := hI.nz k hk
            rw [← mul_sum]
            have : ∑ c ∈ range n, V k c * z c = V k k * (z k + ∑ c ∈ Ico (k+1) (i+1), V k c / V k k * z c) := by
              rw [Finset.range_eq_Ico, ← sum_Ico_consecutive _ (Nat.zero_le k) (by omega : k ≤ n),
                ← sum_Ico_consecutive _ (by omega : k ≤ i+1) (by omega : i+1 ≤ n), sum_eq_sum_Ico_succ_bot (by omega : k < i+1)]
              have a1 : ∑ c ∈ Ico 0 k, V k c * z c = 0 := sum_eq_zero fun c hc => by
                have := mem_Ico.1 hc
                rw [hI.upp k c (by omega), zero_mul]
              have a2 : ∑ c ∈ Ico (i+1) n, V k c * z c = 0 := sum_eq_zero fun c hc => by
                have := mem_Ico.1 hc
                rw [z2 c (by omega), mul_zero]
              rw [a1, a2, mul_add, mul_sum, zero_add, add_zero]
              congr 1
              refine sum_congr rfl fun c _ => ?_
              field_simp
            rw [this, z3 k hk, mul_zero, mul_zero]
          rw [sum_congr rfl e3, sum_const_zero, zero_add]
          refine sum_eq_zero fun c hc => ?_
          have hc := mem_range.1 hc
          split_ifs with hh
          · by_cases e : c = i
            · subst e
              have : rmat B r c = 0 := hz r hh.1 r.2
              rw [this, zero_mul]
            · rw [z2 c (by omega), mul_zero]
          · rw [zero_mul]
      rw [e1, Matrix.det_permute, hdet, hd, Fl.val_zero]; ring

/-- **C64** the closed formula used for 2×2 matrices -/
theorem c64_determinant_2x2 (hu : 2 * ρ.u < 1) (A : Mat (Fl ρ)) :
    ∃ d, determinant 2 A = some d ∧
      |d.val - (asM 2 2 (rmat A)).det| ≤
        gam ρ.u 2 * (|(A 0 0).val * (A 1 1).val| + |(A 1 0).val * (A 0 1).val|) := by
  have h0 := ρ.u_nonneg
  have h1 := ρ.u_lt_one
  refine ⟨_, if_pos rfl, ?_⟩
  obtain ⟨a, ha, ea⟩ := Fl.mul_fac (A 0 0) (A 1 1)
  obtain ⟨b, hb, eb⟩ := Fl.mul_fac (A 1 0) (A 0 1)
  obtain ⟨c, hc, ec⟩ := Fl.sub_fac (A 0 0 * A 1 1) (A 1 0 * A 0 1)
  rw [ec, ea, eb, Matrix.det_fin_two]
  simp only [asM_apply, rmat, Fin.val_zero, Fin.val_one]
  have g1 := (ha.mul h0 h1 hc).gam h0 h1 (by norm_num; exact hu)
  have g2 := (hb.mul h0 h1 hc).gam h0 h1 (by norm_num; exact hu)
  rw [show ∀ p q r s : ℝ, (p * q * a - r * s * b) * c - (p * q - s * r) =
    (a * c - 1) * (p * q) - (b * c - 1) * (r * s) from fun p q r s => by ring]
  refine le_trans (abs_sub _ _) ?_
  rw [abs_mul (a * c - 1), abs_mul (b * c - 1), mul_add]
  exact add_le_add (mul_le_mul_of_nonneg_right g1 (abs_nonneg _)) (mul_le_mul_of_nonneg_right g2 (abs_nonneg _))

/-- **C64** other sizes use the elimination -/
theorem c64_determinant (n : ℕ) (hn : n ≠ 2) (hu : ((n + 1 : ℕ) : ℝ) * ρ.u < 1) (A : Mat (Fl ρ))
    (M : ℝ) (hM : ∀ r c, r < n → c < n → |(A r c).val| ≤ M) :
    ∃ d, determinant n A = some d ∧ ∃ (E : Matrix (Fin n) (Fin n) ℝ) (δ : ℝ),
      (∀ r c, |E r c| ≤ gam ρ.u (n+1) * (2^n * (1+ρ.u)^(2*n) * M)) ∧ |δ| ≤ gam ρ.u n ∧
      d.val = (asM n n (rmat A) + E).det * (1 + δ) := by
  unfold determinant
  rw [if_neg hn]
  exact c64_determinant_gauss n hu A M hM

/-- **C64** in particular a result of zero means that `A` is within the bound of a singular matrix, and for a matrix
further from singularity the result is nonzero -/
theorem c64_zero_near_singular (n : ℕ) (hu : ((n + 1 : ℕ) : ℝ) * ρ.u < 1) (hg : gam ρ.u n < 1) (A : Mat (Fl ρ))
    (M : ℝ) (hM : ∀ r c, r < n → c < n → |(A r c).val| ≤ M) (h : detGauss n A = some 0) :
    ∃ E : Matrix (Fin n) (Fin n) ℝ, (∀ r c, |E r c| ≤ gam ρ.u (n+1) * (2^n * (1+ρ.u)^(2*n) * M)) ∧
      (asM n n (rmat A) + E).det = 0 := by
  obtain ⟨d, hd, E, δ, hE, hδ, e⟩ := c64_determinant_gauss n hu A M hM
  have : d = 0 := Option.some.inj (hd.symm.trans h)
  rw [this, Fl.val_zero] at e
  refine ⟨E, hE, ?_⟩
  rcases mul_eq_zero.1 e.symm with h | h
  · exact h
  · have := abs_le.1 (le_trans hδ hg.le)
    have h2 : δ = -1 := by linarith
    rw [h2] at hδ; norm_num at hδ; linarith

/-- the hypotheses hold for every double matrix of size up to 2^50 -/
example (n : ℕ) (hn : n ≤ 2^50) : ((n+1 : ℕ) : ℝ) * Rounding.double.u < 1 := by
  have h : ((n:ℕ):ℝ) ≤ 2^50 := by exact_mod_cast hn
  have h2 : (2:ℝ)^50 + 1 < 2^53 := by norm_num
  rw [Rounding.double_u, mul_one_div, div_lt_one (by positivity)]
  push_cast; linarith

end TooN.Elim
