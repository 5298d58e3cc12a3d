import Verif.Props.FloatSL3
/-!
# C64: forward error and sign of `determinant`
-/
set_option linter.unusedSectionVars false
namespace TooN.Elim
open Finset
variable {ρ : Rounding}

/-- **C64** forward error of `determinant(A)` for every nonsingular matrix: with `B` the exact inverse, `K` a bound of its absolute row sums and
`ε = K n β < 1`, `β` the backward error, the result is `det A · τ · (1+δ)` with `(1-ε)^n ≤ τ ≤ (1+ε)^n` and `|δ| ≤ γ_n` -/
theorem c64_forward (n : ℕ) (hu : ((n + 1 : ℕ) : ℝ) * ρ.u < 1) (A : Mat (Fl ρ))
    (M : ℝ) (hM : ∀ r c, r < n → c < n → |(A r c).val| ≤ M)
    (B : Matrix (Fin n) (Fin n) ℝ) (hB : B * asM n n (rmat A) = 1) (K ε : ℝ) (hK : ∀ r, ∑ c, |B r c| ≤ K)
    (hε : K * (n * (gam ρ.u (n+1) * (2^n * (1+ρ.u)^(2*n) * M))) ≤ ε) (hε0 : 0 ≤ ε) (hε1 : ε < 1) :
    ∃ d, determinant n A = some d ∧ ∃ τ δ, (1 - ε)^n ≤ τ ∧ τ ≤ (1 + ε)^n ∧ |δ| ≤ gam ρ.u n ∧
      d.val = (asM n n (rmat A)).det * τ * (1 + δ) := by
  obtain ⟨d, hd, E, δ, hE, hδ, e⟩ := SLF.det_backward n hu A M hM
  refine ⟨d, hd, ?_⟩
  have hA : asM n n (rmat A) * B = 1 := mul_eq_one_comm.1 hB
  have hErow : ∀ r, ∑ c, |E r c| ≤ n * SLF.detB ρ n M := by
    intro r
    refine (sum_le_sum fun c _ => hE r c).trans ?_
    rw [sum_const, card_univ, Fintype.card_fin, nsmul_eq_mul]
  have hrow : ∀ r, ∑ c, |(B * E) r c| ≤ ε := by
    intro r
    have h0 : 0 ≤ n * SLF.detB ρ n M := le_trans (sum_nonneg fun _ _ => abs_nonneg _) (hErow r)
    exact (SLF.rows_mul h0 hK hErow r).1.trans hε
  obtain ⟨k1, k2⟩ := SLF.det_near_one (B * E) ε hε0 hrow hε1
  refine ⟨_, δ, k1, k2, hδ, ?_⟩
  have e2 : asM n n (rmat A) * (1 + B * E) = asM n n (rmat A) + E := by
    rw [mul_add, mul_one, ← Matrix.mul_assoc, hA, one_mul]
  rw [e, ← Matrix.det_mul, e2]

/-- **C64** so the sign of the determinant is right, and the result is not zero, for every matrix that is not within the rounding errors of a
singular one -/
theorem c64_sign (n : ℕ) (hu : ((n + 1 : ℕ) : ℝ) * ρ.u < 1) (hg : gam ρ.u n < 1) (A : Mat (Fl ρ))
    (M : ℝ) (hM : ∀ r c, r < n → c < n → |(A r c).val| ≤ M)
    (B : Matrix (Fin n) (Fin n) ℝ) (hB : B * asM n n (rmat A) = 1) (K : ℝ) (hK : ∀ r, ∑ c, |B r c| ≤ K)
    (hε : K * (n * (gam ρ.u (n+1) * (2^n * (1+ρ.u)^(2*n) * M))) < 1) :
    ∃ d, determinant n A = some d ∧ (0 < d.val ↔ 0 < (asM n n (rmat A)).det) ∧ (d.val < 0 ↔ (asM n n (rmat A)).det < 0) := by
  set e0 := K * (n * (gam ρ.u (n+1) * (2^n * (1+ρ.u)^(2*n) * M))) with he0
  obtain ⟨d, hd, τ, δ, h1, -, h3, e⟩ := c64_forward n hu A M hM B hB K (max e0 0) hK (le_max_left _ _) (le_max_right _ _)
    (max_lt hε one_pos)
  have hp : 0 < τ * (1 + δ) := by
    have h4 : 0 < (1 - max e0 0)^n := pow_pos (by linarith [max_lt hε one_pos]) n
    have := (abs_le.1 h3).1
    exact mul_pos (lt_of_lt_of_le h4 h1) (by linarith)
  rw [mul_assoc] at e
  refine ⟨d, hd, ?_, ?_⟩
  · rw [e]; exact mul_pos_iff_of_pos_right hp
  · rw [e]; exact ⟨fun h => by_contra fun hn => absurd h (not_lt.2 (mul_nonneg (not_lt.1 hn) hp.le)), fun h => mul_neg_of_neg_of_pos h hp⟩

/-- the hypotheses hold for `2 I` in double precision -/
example : ∃ d, determinant 2 SLF.twoI = some d ∧ 0 < d.val := by
  have hu := Rounding.double_u
  obtain ⟨d, hd, h, -⟩ := c64_sign 2 (by rw [hu]; norm_num) (by rw [gam, hu]; norm_num) SLF.twoI 2 (SLF.twoI_le 2) !![1/2, 0; 0, 1/2]
    (by
      rw [SLF.asM_twoI]
      ext r c
      fin_cases r <;> fin_cases c <;> simp [Matrix.mul_apply, Fin.sum_univ_two])
    (1/2) (by intro r; fin_cases r <;> norm_num [Fin.sum_univ_two]) (by rw [gam, hu]; norm_num)
  refine ⟨d, hd, h.2 ?_⟩
  rw [SLF.asM_twoI, Matrix.det_fin_two]
  norm_num

end TooN.Elim
