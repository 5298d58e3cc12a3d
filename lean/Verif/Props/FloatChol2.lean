import Verif.Props.FloatChol
import Verif.Proof.DetNear
import Verif.Props.FloatOps
/-!
# C62: determinant, Mahalanobis distance and inverse of `Cholesky` in floating-point arithmetic
-/
set_option linter.unusedSectionVars false
namespace TooN.Chol
open Finset
variable {ρ : Rounding}

/-- the matrix `L D Lᵀ` of the stored factors -/
noncomputable def ldlt (n : ℕ) (m : Mat (Fl ρ)) : Matrix (Fin n) (Fin n) ℝ :=
  Matrix.of fun r c => ∑ j ∈ range n, lf m r j * (m j j).val * lf m c j

theorem det_ldlt (n : ℕ) (m : Mat (Fl ρ)) : (ldlt n m).det = ∏ j ∈ range n, (m j j).val := by
  let L : Matrix (Fin n) (Fin n) ℝ := Matrix.of fun r c => lf m r c
  have hL : L.det = 1 := by
    rw [Matrix.det_of_isLowerTriangular]
    · refine prod_eq_one fun i _ => ?_
      simp [L, lf]
    · intro i j hij
      have hij' : (i : ℕ) < j := hij
      simp only [L, Matrix.of_apply, lf]
      rw [if_neg (by omega), if_neg (by omega)]
  have e : ldlt n m = L * Matrix.diagonal (fun j : Fin n => (m j j).val) * L.transpose := by
    ext r c
    rw [Matrix.mul_apply]
    simp only [Matrix.mul_diagonal, Matrix.transpose_apply, ldlt, Matrix.of_apply, L]
    rw [Fin.sum_univ_eq_sum_range (fun j => lf m r j * (m j j).val * lf m c j)]
  rw [e, Matrix.det_mul, Matrix.det_mul, Matrix.det_transpose, hL, Matrix.det_diagonal, one_mul, mul_one,
    Fin.prod_univ_eq_prod_range (fun j => (m j j).val)]

theorem ldlt_err (n : ℕ) (hu : ((3 * n + 1 : ℕ) : ℝ) * ρ.u < 1) (hγ : gam ρ.u (n+1) < 1) (A : Mat (Fl ρ))
    (hrank : (compute n A).2 = n) (hD : ∀ j, j < n → 0 < ((compute n A).1 j j).val) (r c : Fin n) :
    |(ldlt n (compute n A).1 - asM n n (rmat (lowerSym A))) r c| ≤
      gam ρ.u (n+1) / (1 - gam ρ.u (n+1)) * Real.sqrt ((A r r).val * (A c c).val) := by
  have := (c62_stable n hu hγ A A A hrank hD (fun _ => 0) (fun _ => 0) (fun _ => 0)).1 r c r.2 c.2
  rw [abs_sub_comm] at this
  rw [Matrix.sub_apply, ldlt, Matrix.of_apply, asM_apply]
  have e : ∑ j ∈ range n, rmat (getUnscaledL n (compute n A).1 A) r j * rmat (getD n (compute n A).1 A) j j *
      rmat (getUnscaledL n (compute n A).1 A) c j =
      ∑ j ∈ range n, lf (compute n A).1 r j * ((compute n A).1 j j).val * lf (compute n A).1 c j :=
    sum_congr rfl fun j hj => by
      have := mem_range.1 hj
      rw [rmat_getL _ A r j r.2 this, rmat_getL _ A c j c.2 this, rmat_getD _ A j this]
  rw [e] at this
  exact this

/-- **C62** the determinant is, up to `n-1` roundings, the exact determinant of a matrix that differs from `A` entry by entry by at most
`γ/(1-γ) √(Aᵢᵢ Aⱼⱼ)` -/
theorem c62_determinant_backward (n : ℕ) (hn : 0 < n) (hu : ((3 * n + 1 : ℕ) : ℝ) * ρ.u < 1) (hγ : gam ρ.u (n+1) < 1)
    (A : Mat (Fl ρ)) (hrank : (compute n A).2 = n) (hD : ∀ j, j < n → 0 < ((compute n A).1 j j).val) :
    ∃ (E : Matrix (Fin n) (Fin n) ℝ) (δ : ℝ),
      (∀ r c, |E r c| ≤ gam ρ.u (n+1) / (1 - gam ρ.u (n+1)) * Real.sqrt ((A r r).val * (A c c).val)) ∧
      |δ| ≤ gam ρ.u (n - 1) ∧
      (determinant n (compute n A).1).val = (asM n n (rmat (lowerSym A)) + E).det * (1 + δ) := by
  have h0 := ρ.u_nonneg
  have hu' : ((n - 1 : ℕ) : ℝ) * ρ.u < 1 :=
    lt_of_le_of_lt (mul_le_mul_of_nonneg_right (by exact_mod_cast (by omega : n - 1 ≤ 3 * n + 1)) h0) hu
  have h1 := c62_determinant n hn hu' (compute n A).1
  refine ⟨ldlt n (compute n A).1 - asM n n (rmat (lowerSym A)),
    (determinant n (compute n A).1).val / (∏ j ∈ range n, ((compute n A).1 j j).val) - 1, ldlt_err n hu hγ A hrank hD, ?_, ?_⟩
  · have hp : 0 < ∏ j ∈ range n, ((compute n A).1 j j).val := prod_pos fun j hj => hD j (mem_range.1 hj)
    generalize ∏ j ∈ range n, ((compute n A).1 j j).val = p at *
    rw [abs_of_pos hp] at h1
    rw [show (determinant n (compute n A).1).val / p - 1 = ((determinant n (compute n A).1).val - p) / p by field_simp, abs_div,
      abs_of_pos hp, div_le_iff₀ hp]
    exact h1
  · have hp : 0 < ∏ j ∈ range n, ((compute n A).1 j j).val := prod_pos fun j hj => hD j (mem_range.1 hj)
    rw [add_sub_cancel, det_ldlt]
    field_simp
    ring

/-- **C62** forward error of the determinant: with `H` the matrix scaled to unit diagonal, `B` its exact inverse, `K` a bound of the absolute
row sums of `B` and `ε = n K γ/(1-γ) < 1`, the computed value is `det A · τ · (1+δ)` with `(1-ε)^n ≤ τ ≤ (1+ε)^n`, `|δ| ≤ γ_{n-1}` -/
theorem c62_determinant_forward (n : ℕ) (hn : 0 < n) (hu : ((3 * n + 1 : ℕ) : ℝ) * ρ.u < 1) (hγ : gam ρ.u (n+1) < 1)
    (A : Mat (Fl ρ)) (hrank : (compute n A).2 = n) (hD : ∀ j, j < n → 0 < ((compute n A).1 j j).val)
    (hpos : ∀ i, i < n → 0 < (A i i).val)
    (B : Matrix (Fin n) (Fin n) ℝ)
    (hB : B * (Matrix.of fun r c : Fin n => (lowerSym A r c).val / (Real.sqrt (A r r).val * Real.sqrt (A c c).val)) = 1)
    (K ε : ℝ) (hK : ∀ r, ∑ c, |B r c| ≤ K) (hε : K * (n * (gam ρ.u (n+1) / (1 - gam ρ.u (n+1)))) ≤ ε) (hε1 : ε < 1) :
    ∃ τ δ, (1 - ε)^n ≤ τ ∧ τ ≤ (1 + ε)^n ∧ |δ| ≤ gam ρ.u (n - 1) ∧
      (determinant n (compute n A).1).val = (asM n n (rmat (lowerSym A))).det * τ * (1 + δ) := by
  have h0 := ρ.u_nonneg
  have h1 := ρ.u_lt_one
  obtain ⟨E, δ, hE, hδ, e⟩ := c62_determinant_backward n hn hu hγ A hrank hD
  have hu1 : ((n + 1 : ℕ) : ℝ) * ρ.u < 1 :=
    lt_of_le_of_lt (mul_le_mul_of_nonneg_right (by exact_mod_cast (by omega : n + 1 ≤ 3 * n + 1)) h0) hu
  have g0 : 0 ≤ gam ρ.u (n+1) / (1 - gam ρ.u (n+1)) := div_nonneg (gam_nonneg h0 h1 hu1) (by linarith)
  generalize gam ρ.u (n+1) / (1 - gam ρ.u (n+1)) = g at *
  have hs : ∀ i : Fin n, 0 < Real.sqrt (A i i).val := fun i => Real.sqrt_pos.2 (hpos i i.2)
  let S : Matrix (Fin n) (Fin n) ℝ := Matrix.diagonal fun i => Real.sqrt (A i i).val
  let F : Matrix (Fin n) (Fin n) ℝ := Matrix.of fun r c => E r c / (Real.sqrt (A r r).val * Real.sqrt (A c c).val)
  set H : Matrix (Fin n) (Fin n) ℝ := Matrix.of fun r c : Fin n => (lowerSym A r c).val / (Real.sqrt (A r r).val * Real.sqrt (A c c).val)
    with hH
  have scale : ∀ X : Matrix (Fin n) (Fin n) ℝ,
      S * (Matrix.of fun r c => X r c / (Real.sqrt (A r r).val * Real.sqrt (A c c).val)) * S = X := by
    intro X
    ext r c
    simp only [S, Matrix.mul_diagonal, Matrix.diagonal_mul, Matrix.of_apply]
    have := (hs r).ne'
    have := (hs c).ne'
    field_simp
  have hA : S * H * S = asM n n (rmat (lowerSym A)) := scale (asM n n (rmat (lowerSym A)))
  have hF : S * F * S = E := scale E
  have hB' : H * B = 1 := mul_eq_one_comm.1 hB
  have hAE : asM n n (rmat (lowerSym A)) + E = S * H * (1 + B * F) * S := by
    rw [mul_add, mul_one, add_mul, hA, ← hF]
    congr 2
    rw [Matrix.mul_assoc, ← Matrix.mul_assoc H, hB', one_mul]
  have hFrow : ∀ r, ∑ c, |F r c| ≤ n * g := by
    intro r
    have : ∀ c, |F r c| ≤ g := by
      intro c
      have := hE r c
      rw [Real.sqrt_mul (hpos r r.2).le] at this
      simp only [F, Matrix.of_apply]
      have hp := mul_pos (hs r) (hs c)
      rw [abs_div, abs_of_pos hp, div_le_iff₀ hp]
      exact this
    refine (sum_le_sum fun c _ => this c).trans ?_
    rw [sum_const, card_univ, Fintype.card_fin, nsmul_eq_mul]
  have hrow : ∀ r, ∑ c, |(B * F) r c| ≤ ε := by
    intro r
    refine le_trans ?_ hε
    have h2 : ∑ c, |(B * F) r c| ≤ ∑ c, ∑ k, |B r k| * |F k c| := by
      refine sum_le_sum fun c _ => ?_
      rw [Matrix.mul_apply]
      exact (abs_sum_le_sum_abs _ _).trans (le_of_eq (sum_congr rfl fun k _ => abs_mul _ _))
    refine h2.trans ?_
    rw [sum_comm]
    refine (sum_le_sum (g := fun k => |B r k| * (n * g)) fun k _ => ?_).trans ?_
    · rw [← mul_sum]; exact mul_le_mul_of_nonneg_left (hFrow k) (abs_nonneg _)
    · rw [← sum_mul]; exact mul_le_mul_of_nonneg_right (hK r) (by positivity)
  have K0 : 0 ≤ K := le_trans (sum_nonneg fun _ _ => abs_nonneg _) (hK ⟨0, hn⟩)
  obtain ⟨k1, k2⟩ := SLF.det_near_one (B * F) ε (le_trans (by positivity) hε) hrow hε1
  refine ⟨_, δ, k1, k2, hδ, ?_⟩
  rw [e, hAE, ← hA]
  simp only [Matrix.det_mul]
  ring

/-- **C62** `mahalanobis(v)`: the dot product of `v` with the backward stable solution of `A x = v` -/
theorem c62_mahalanobis (n : ℕ) (hu : ((3 * n + 1 : ℕ) : ℝ) * ρ.u < 1) (hγ : gam ρ.u (n+1) < 1) (A : Mat (Fl ρ))
    (hrank : (compute n A).2 = n) (hD : ∀ j, j < n → 0 < ((compute n A).1 j j).val) (v y₀ x₀ : Vec (Fl ρ)) :
    ∃ (d : Fl ρ) (x : Vec ℝ) (E : Mat ℝ), mahalanobis n (compute n A).1 v y₀ x₀ = some d ∧
      (∀ i k, i < n → k < n → |E i k| ≤ gam ρ.u (3 * n) / (1 - gam ρ.u (n+1)) * Real.sqrt ((A i i).val * (A k k).val)) ∧
      (∀ i, i < n → ∑ k ∈ range n, ((lowerSym A i k).val + E i k) * x k = (v i).val) ∧
      |d.val - ∑ i ∈ range n, (v i).val * x i| ≤ gam ρ.u n * ∑ i ∈ range n, |(v i).val * x i| := by
  obtain ⟨x, hx, E, hE, he⟩ := (c62_stable n hu hγ A A A hrank hD v y₀ x₀).2
  have hun : (n : ℝ) * ρ.u < 1 :=
    lt_of_le_of_lt (mul_le_mul_of_nonneg_right (by exact_mod_cast (by omega : n ≤ 3 * n + 1)) ρ.u_nonneg) hu
  refine ⟨Ops.dot n v x, fun i => (x i).val, E, ?_, hE, he, c61_dot n hun v x⟩
  unfold mahalanobis
  rw [hx, Option.bind_some]

/-- **C62** `get_inverse()`: every column solves exactly a system with a matrix close to `A` -/
theorem c62_inverse (n : ℕ) (hu : ((3 * n + 1 : ℕ) : ℝ) * ρ.u < 1) (hγ : gam ρ.u (n+1) < 1) (A u w : Mat (Fl ρ))
    (hrank : (compute n A).2 = n) (hD : ∀ j, j < n → 0 < ((compute n A).1 j j).val) :
    ∃ X, getInverse n (compute n A).1 u w = some X ∧ ∀ q, q < n → ∃ E : Mat ℝ,
      (∀ i k, i < n → k < n → |E i k| ≤ gam ρ.u (3 * n + 1) / (1 - gam ρ.u (n+1)) * Real.sqrt ((A i i).val * (A k k).val)) ∧
      ∀ i, i < n → ∑ k ∈ range n, ((lowerSym A i k).val + E i k) * (X k q).val = if i = q then 1 else 0 := by
  have hu1 : ((n + 1 : ℕ) : ℝ) * ρ.u < 1 :=
    lt_of_le_of_lt (mul_le_mul_of_nonneg_right (by exact_mod_cast (by omega : n + 1 ≤ 3 * n + 1)) ρ.u_nonneg) hu
  obtain ⟨X, hX, h⟩ := c62_backsub_matrix n n hu A A A hrank (fun r c => if r = c then 1 else 0) u w
  refine ⟨X, hX, fun q hq => ?_⟩
  obtain ⟨E, hE, he⟩ := h q hq
  refine ⟨E, fun i k hi hk => (hE i k hi hk).trans ?_, fun i hi => ?_⟩
  · refine le_trans (mul_le_mul_of_nonneg_left (ldl_bound n hu1 hγ A A A hrank hD i k hi hk)
      (gam_nonneg ρ.u_nonneg ρ.u_lt_one hu)) (le_of_eq (by ring))
  · rw [he i hi]
    split_ifs <;> rfl

/-- the matrix `[[2,1],[1,2]]` in double precision -/
noncomputable def m21 : Mat (Fl Rounding.double) := fun r c => if r = c then Fl.of Rounding.double 2 else 1

/-- the hypotheses hold for `[[2,1],[1,2]]`: the computed determinant is 3 to within 1e-13 -/
example : |(determinant 2 (compute 2 m21).1).val - 3| ≤ 1/10^13 := by
  have hu := Rounding.double_u
  have h2 : (Fl.of Rounding.double 2).val = 2 := by
    have := rndNearest_int 53 (by norm_num) 2 (by norm_num)
    exact_mod_cast this
  have hd : ∀ i : ℕ, (m21 i i).val = 2 := fun i => by unfold m21; rw [if_pos rfl, h2]
  obtain ⟨hr, hD⟩ := c62_success (ρ := Rounding.double) 2 m21
    (by rw [hu]; norm_num) (by rw [gam, hu]; norm_num) (1/2) (by rw [gam, hu]; norm_num)
    (by intro i _; rw [hd]; norm_num)
    (by
      intro x
      simp only [sum_range_succ, sum_range_zero, lowerSym]
      norm_num [h2, m21]
      nlinarith [sq_nonneg (x 0 + x 1)]) (fun _ _ => 0)
  have hD' : ∀ j, j < 2 → 0 < ((compute 2 m21).1 j j).val := fun j hj => by
    have := hD j hj
    rwa [rmat_getD _ _ j hj] at this
  have hs : Real.sqrt 2 * Real.sqrt 2 = 2 := Real.mul_self_sqrt (by norm_num)
  obtain ⟨τ, δ, t1, t2, d, e⟩ := c62_determinant_forward 2 (by norm_num) (by rw [hu]; norm_num) (by rw [gam, hu]; norm_num)
    m21 hr hD' (by intro i _; rw [hd]; norm_num) !![4/3, -2/3; -2/3, 4/3]
    (by
      have : (Matrix.of fun r c : Fin 2 => (lowerSym m21 r c).val / (Real.sqrt (m21 r r).val * Real.sqrt (m21 c c).val)) =
          !![1, 1/2; 1/2, 1] := by
        ext r c
        simp only [hd, hs, Matrix.of_apply]
        fin_cases r <;> fin_cases c <;> norm_num [lowerSym, m21, h2]
      rw [this]
      ext r c
      fin_cases r <;> fin_cases c <;> norm_num [Matrix.mul_apply, Fin.sum_univ_two])
    2 (2/10^15) (by intro r; fin_cases r <;> norm_num [Fin.sum_univ_two, abs_of_pos]) (by rw [gam, hu]; norm_num) (by norm_num)
  have hdet : (asM 2 2 (rmat (lowerSym m21))).det = 3 := by
    rw [Matrix.det_fin_two]
    simp only [asM_apply, rmat, lowerSym, m21]
    norm_num [h2]
  rw [hdet] at e
  have hg : gam Rounding.double.u (2 - 1) ≤ 2/10^16 := by rw [gam, hu]; norm_num
  obtain ⟨a1, a2⟩ := abs_le.1 (d.trans hg)
  have s1 : (1 - 5/10^15 : ℝ) ≤ τ := by refine le_trans ?_ t1; norm_num
  have s2 : τ ≤ (1 + 5/10^15 : ℝ) := by refine le_trans t2 ?_; norm_num
  rw [e, abs_le]
  constructor <;> nlinarith

end TooN.Chol
