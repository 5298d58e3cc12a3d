import Verif.Props.FloatChol2
import Verif.Props.FloatSL3
/-!
# C62: forward error of `Cholesky::backsub` and `mahalanobis`
-/
set_option linter.unusedSectionVars false
namespace TooN.Chol
open Finset
variable {ρ : Rounding}

/-- the solution of a perturbed system -/
theorem perturbed_solution {n : ℕ} (H F B : Matrix (Fin n) (Fin n) ℝ) (y z : Fin n → ℝ) (K β : ℝ) (hB : B * H = 1)
    (hK : ∀ r, ∑ c, |B r c| ≤ K) (hF : ∀ r c, |F r c| ≤ β) (he : (H + F).mulVec y = H.mulVec z) (hs : K * (n * β) < 1) (r : Fin n) :
    |y r - z r| ≤ K * β / (1 - K * (n * β)) * ∑ c, |z c| := by
  have hn : 0 < n := lt_of_le_of_lt (Nat.zero_le _) r.2
  have K0 : 0 ≤ K := le_trans (sum_nonneg fun _ _ => abs_nonneg _) (hK r)
  have b0 : 0 ≤ β := le_trans (abs_nonneg _) (hF r r)
  generalize hS : ∑ c, |y c| = S
  have hS0 : 0 ≤ S := by rw [← hS]; exact sum_nonneg fun _ _ => abs_nonneg _
  have hv : y - z = -(B * F).mulVec y := by
    have h1 : B.mulVec ((H + F).mulVec y) = B.mulVec (H.mulVec z) := by rw [he]
    rw [Matrix.mulVec_mulVec, Matrix.mulVec_mulVec, mul_add, hB, Matrix.add_mulVec, Matrix.one_mulVec, Matrix.one_mulVec] at h1
    rw [← h1]; abel
  have hrow : ∀ r, ∑ c, |(B * F) r c| * |y c| ≤ K * β * S := by
    intro r
    have : ∀ c, |(B * F) r c| ≤ K * β := by
      intro c
      rw [Matrix.mul_apply]
      refine (abs_sum_le_sum_abs _ _).trans ?_
      refine (sum_le_sum (g := fun k => |B r k| * β) fun k _ => ?_).trans ?_
      · rw [abs_mul]; exact mul_le_mul_of_nonneg_left (hF k c) (abs_nonneg _)
      · rw [← sum_mul]; exact mul_le_mul_of_nonneg_right (hK r) b0
    refine (sum_le_sum fun c _ => mul_le_mul_of_nonneg_right (this c) (abs_nonneg _)).trans ?_
    rw [← mul_sum, hS]
  have hdiff : ∀ s, |y s - z s| ≤ K * β * S := by
    intro s
    have := congrFun hv s
    rw [Pi.sub_apply, Pi.neg_apply] at this
    rw [this, abs_neg, Matrix.mulVec, dotProduct]
    refine (abs_sum_le_sum_abs _ _).trans ?_
    exact (sum_le_sum fun c _ => (abs_mul _ _).le).trans (hrow s)
  have hSB : S ≤ ∑ c, |z c| + K * (n * β) * S := by
    conv_lhs => rw [← hS]
    have : ∀ c, |y c| ≤ |z c| + K * β * S := by
      intro c
      have h2 := hdiff c
      have h3 := abs_add_le (z c) (y c - z c)
      rw [add_sub_cancel] at h3
      linarith
    refine le_trans (sum_le_sum fun c _ => this c) ?_
    rw [sum_add_distrib, sum_const, card_univ, Fintype.card_fin, nsmul_eq_mul]
    exact le_of_eq (by ring)
  have hS2 : S ≤ (∑ c, |z c|) / (1 - K * (n * β)) := by
    rw [le_div_iff₀ (by linarith)]; linarith
  refine le_trans (hdiff r) ?_
  calc K * β * S ≤ K * β * ((∑ c, |z c|) / (1 - K * (n * β))) := mul_le_mul_of_nonneg_left hS2 (by positivity)
    _ = _ := by ring

/-- the matrix given by the lower half of `A`, scaled to unit diagonal -/
noncomputable def scaled (n : ℕ) (A : Mat (Fl ρ)) : Matrix (Fin n) (Fin n) ℝ :=
  Matrix.of fun r c => (lowerSym A r c).val / (Real.sqrt (A r r).val * Real.sqrt (A c c).val)

/-- **C62** forward error of `backsub`: with `B` the exact inverse of the matrix scaled to unit diagonal, `K` its absolute row sums,
`β = γ_{3n}/(1-γ_{n+1})` and `K n β < 1`, every component satisfies `√Aᵢᵢ |xᵢ - zᵢ| ≤ Kβ/(1-Knβ) Σ √Aⱼⱼ |zⱼ|`: the condition number that
counts is that of the scaled matrix, so a bad choice of units does no harm -/
theorem c62_forward (n : ℕ) (hu : ((3 * n + 1 : ℕ) : ℝ) * ρ.u < 1) (hγ : gam ρ.u (n+1) < 1) (A : Mat (Fl ρ))
    (hrank : (compute n A).2 = n) (hD : ∀ j, j < n → 0 < ((compute n A).1 j j).val) (hpos : ∀ i, i < n → 0 < (A i i).val)
    (v y₀ x₀ : Vec (Fl ρ)) (B : Matrix (Fin n) (Fin n) ℝ) (hB : B * scaled n A = 1) (K β : ℝ) (hK : ∀ r, ∑ c, |B r c| ≤ K)
    (hβ : β = gam ρ.u (3 * n) / (1 - gam ρ.u (n+1))) (hs : K * (n * β) < 1)
    (z : Fin n → ℝ) (hz : (asM n n (rmat (lowerSym A))).mulVec z = fun r : Fin n => (v r).val) :
    ∃ x, backsub n (compute n A).1 v y₀ x₀ = some x ∧ ∀ i : Fin n,
      Real.sqrt (A i i).val * |(x i).val - z i| ≤ K * β / (1 - K * (n * β)) * ∑ j : Fin n, Real.sqrt (A j j).val * |z j| := by
  obtain ⟨x, hx, E, hE, he⟩ := (c62_stable n hu hγ A A A hrank hD v y₀ x₀).2
  refine ⟨x, hx, fun i => ?_⟩
  rw [← hβ] at hE
  have hsq : ∀ i : Fin n, 0 < Real.sqrt (A i i).val := fun i => Real.sqrt_pos.2 (hpos i i.2)
  let F : Matrix (Fin n) (Fin n) ℝ := Matrix.of fun r c => E r c / (Real.sqrt (A r r).val * Real.sqrt (A c c).val)
  have hF : ∀ r c, |F r c| ≤ β := by
    intro r c
    have := hE r c r.2 c.2
    rw [Real.sqrt_mul (hpos r r.2).le] at this
    simp only [F, Matrix.of_apply]
    have hp := mul_pos (hsq r) (hsq c)
    rw [abs_div, abs_of_pos hp, div_le_iff₀ hp]
    exact this
  have hsys : (scaled n A + F).mulVec (fun j : Fin n => Real.sqrt (A j j).val * (x j).val) =
      (scaled n A).mulVec (fun j : Fin n => Real.sqrt (A j j).val * z j) := by
    ext r
    have h1 := he r r.2
    rw [← Fin.sum_univ_eq_sum_range (fun k => ((lowerSym A r k).val + E r k) * (x k).val)] at h1
    have h2 := congrFun hz r
    simp only [Matrix.mulVec, dotProduct, asM_apply, rmat] at h2
    simp only [Matrix.mulVec, dotProduct, Matrix.add_apply, scaled, F, Matrix.of_apply]
    have e1 : ∀ k : Fin n, ((lowerSym A r k).val / (Real.sqrt (A r r).val * Real.sqrt (A k k).val) +
        E r k / (Real.sqrt (A r r).val * Real.sqrt (A k k).val)) * (Real.sqrt (A k k).val * (x k).val) =
        (((lowerSym A r k).val + E r k) * (x k).val) / Real.sqrt (A r r).val := by
      intro k
      have := (hsq r).ne'
      have := (hsq k).ne'
      field_simp
    have e2 : ∀ k : Fin n, (lowerSym A r k).val / (Real.sqrt (A r r).val * Real.sqrt (A k k).val) * (Real.sqrt (A k k).val * z k) =
        ((lowerSym A r k).val * z k) / Real.sqrt (A r r).val := by
      intro k
      have := (hsq r).ne'
      have := (hsq k).ne'
      field_simp
    rw [sum_congr rfl fun k _ => e1 k, sum_congr rfl fun k _ => e2 k, ← sum_div, ← sum_div, h1, h2]
  have := perturbed_solution (scaled n A) F B _ _ K β hB hK hF hsys hs i
  have e3 : ∀ j : Fin n, |Real.sqrt (A j j).val * z j| = Real.sqrt (A j j).val * |z j| := fun j => by
    rw [abs_mul, abs_of_pos (hsq j)]
  rw [sum_congr rfl fun j _ => e3 j, ← mul_sub, abs_mul, abs_of_pos (hsq i)] at this
  exact this

/-- the hypotheses hold for `[[2,1],[1,2]] x = (1,2)` -/
example (y₀ x₀ : Vec (Fl Rounding.double)) : ∃ x, backsub 2 (compute 2 m21).1 (fun i => if i = 0 then 1 else Fl.of Rounding.double 2) y₀ x₀ = some x ∧
    |(x 0).val| ≤ 1/10^13 ∧ |(x 1).val - 1| ≤ 1/10^13 := by
  have hu := Rounding.double_u
  have h2 : (Fl.of Rounding.double 2).val = 2 := SLF.of_two
  have hd : ∀ i : ℕ, (m21 i i).val = 2 := fun i => by unfold m21; rw [if_pos rfl, h2]
  obtain ⟨hr, hD⟩ := c62_success (ρ := Rounding.double) 2 m21
    (by rw [hu]; norm_num) (by rw [gam, hu]; norm_num) (1/2) (by rw [gam, hu]; norm_num)
    (by intro i _; rw [hd]; norm_num)
    (by
      intro x
      simp only [sum_range_succ, sum_range_zero, lowerSym]
      norm_num [h2, m21]
      nlinarith [sq_nonneg (x 0 + x 1)]) (fun _ _ => 0)
  have hD' : ∀ j, j < 2 → 0 < ((compute 2 m21).1 j j).val := fun j hj => by
    have := hD j hj
    rwa [rmat_getD _ _ j hj] at this
  have hs : Real.sqrt 2 * Real.sqrt 2 = 2 := Real.mul_self_sqrt (by norm_num)
  have hb : gam Rounding.double.u (3 * 2) / (1 - gam Rounding.double.u (2+1)) ≤ 1/10^15 := by
    unfold gam; rw [hu]; norm_num
  have hb0 : 0 ≤ gam Rounding.double.u (3 * 2) / (1 - gam Rounding.double.u (2+1)) := by
    unfold gam; rw [hu]; norm_num
  generalize hβ : gam Rounding.double.u (3 * 2) / (1 - gam Rounding.double.u (2+1)) = β at hb hb0
  obtain ⟨x, hx, h⟩ := c62_forward 2 (by rw [hu]; norm_num) (by rw [gam, hu]; norm_num)
    m21 hr hD' (by intro i _; rw [hd]; norm_num) (fun i => if i = 0 then 1 else Fl.of Rounding.double 2) y₀ x₀ !![4/3, -2/3; -2/3, 4/3]
    (by
      have : scaled 2 m21 = !![1, 1/2; 1/2, 1] := by
        ext r c
        simp only [scaled, hd, hs, Matrix.of_apply]
        fin_cases r <;> fin_cases c <;> norm_num [lowerSym, m21, h2]
      rw [this]
      ext r c
      fin_cases r <;> fin_cases c <;> norm_num [Matrix.mul_apply, Fin.sum_univ_two])
    2 β (by intro r; fin_cases r <;> norm_num [Fin.sum_univ_two, abs_of_pos]) hβ.symm (by push_cast; linarith) ![0, 1]
    (by
      ext r
      fin_cases r <;> simp [Matrix.mulVec, dotProduct, Fin.sum_univ_two, asM_apply, rmat, lowerSym, m21, h2])
  have hk : 2 * β / (1 - 2 * ((2:ℕ) * β)) ≤ 3/10^15 := by
    push_cast
    rw [div_le_iff₀ (by linarith)]
    nlinarith
  have hp : 1 ≤ Real.sqrt 2 := by rw [Real.one_le_sqrt]; norm_num
  refine ⟨x, hx, ?_, ?_⟩
  · have := h 0
    simp only [hd, Fin.sum_univ_two, Matrix.cons_val, Fin.val_zero, sub_zero, abs_zero, mul_zero, zero_add, abs_one, mul_one] at this
    nlinarith [abs_nonneg (x 0).val]
  · have := h 1
    simp only [hd, Fin.sum_univ_two, Matrix.cons_val, Fin.val_one, abs_zero, mul_zero, zero_add, abs_one, mul_one] at this
    nlinarith [abs_nonneg ((x 1).val - 1)]

end TooN.Chol
