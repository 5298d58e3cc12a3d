import Verif.Spec.SymEigen
import Verif.Proof.Ops
import Verif.Proof.Spectral
import Verif.Props.Helpers
import Mathlib.LinearAlgebra.Matrix.NonsingularInverse
import Mathlib.LinearAlgebra.Matrix.Adjugate
import Mathlib.LinearAlgebra.Matrix.Charpoly.Basic
import Mathlib.LinearAlgebra.Matrix.Charpoly.Eigs
import Mathlib.Analysis.SpecialFunctions.Trigonometric.Basic
import Mathlib.Tactic.FinCases
import Mathlib.Tactic.LinearCombination
import Mathlib.Tactic.Linarith
/-!
# Proofs for the closed form 3×3 eigendecomposition
-/
set_option linter.unusedSectionVars false
namespace TooN.SymEigen
open TooN.Ops TooN.Helpers Matrix

/-- three numbers in ascending order are determined by their elementary symmetric functions -/
theorem sorted_unique {x0 x1 x2 y0 y1 y2 : ℝ} (hx : x0 ≤ x1 ∧ x1 ≤ x2) (hy : y0 ≤ y1 ∧ y1 ≤ y2)
    (h : ∀ x, (x - x0) * (x - x1) * (x - x2) = (x - y0) * (x - y1) * (x - y2)) : x0 = y0 ∧ x1 = y1 ∧ x2 = y2 := by
  have a1 : y0 ≤ x0 := by
    have := h x0
    rw [sub_self, zero_mul, zero_mul] at this
    rcases mul_eq_zero.1 this.symm with h' | h'
    · rcases mul_eq_zero.1 h' with h' | h' <;> linarith [hy.1, hy.2]
    · linarith [hy.1, hy.2]
  have a2 : x0 ≤ y0 := by
    have := h y0
    rw [sub_self, zero_mul, zero_mul] at this
    rcases mul_eq_zero.1 this with h' | h'
    · rcases mul_eq_zero.1 h' with h' | h' <;> linarith [hx.1, hx.2]
    · linarith [hx.1, hx.2]
  have b1 : x2 ≤ y2 := by
    have := h x2
    rw [sub_self, mul_zero] at this
    rcases mul_eq_zero.1 this.symm with h' | h'
    · rcases mul_eq_zero.1 h' with h' | h' <;> linarith [hy.1, hy.2]
    · linarith [hy.1, hy.2]
  have b2 : y2 ≤ x2 := by
    have := h y2
    rw [sub_self, mul_zero] at this
    rcases mul_eq_zero.1 this with h' | h'
    · rcases mul_eq_zero.1 h' with h' | h' <;> linarith [hx.1, hx.2]
    · linarith [hx.1, hx.2]
  have e1 := h 1
  have e2 := h (-1)
  have e3 := h 0
  have : x0 + x1 + x2 = y0 + y1 + y2 := by linear_combination (-1/2) * e1 + (-1/2) * e2 + e3
  exact ⟨by linarith, by linarith, by linarith⟩

theorem sort3_spec (t : ℝ × ℝ × ℝ) :
    let u := sort3 id t
    (u.1 ≤ u.2.1 ∧ u.2.1 ≤ u.2.2) ∧
    ∀ x, (x - u.1) * (x - u.2.1) * (x - u.2.2) = (x - t.1) * (x - t.2.1) * (x - t.2.2) := by
  obtain ⟨a, b, c⟩ := t
  by_cases h1 : a > b
  · by_cases h2 : a > c
    · by_cases h3 : b > c
      · simp only [sort3, id, if_pos h1, if_pos h2, if_pos h3]
        exact ⟨⟨by linarith, by linarith⟩, fun x => by ring⟩
      · simp only [sort3, id, if_pos h1, if_pos h2, if_neg h3]
        exact ⟨⟨by linarith, by linarith⟩, fun x => by ring⟩
    · have h3 : ¬ b > a := by linarith
      simp only [sort3, id, if_pos h1, if_neg h2, if_neg h3]
      exact ⟨⟨by linarith, by linarith⟩, fun x => by ring⟩
  · by_cases h2 : b > c
    · by_cases h3 : a > c
      · simp only [sort3, id, if_neg h1, if_pos h2, if_pos h3]
        exact ⟨⟨by linarith, by linarith⟩, fun x => by ring⟩
      · simp only [sort3, id, if_neg h1, if_pos h2, if_neg h3]
        exact ⟨⟨by linarith, by linarith⟩, fun x => by ring⟩
    · simp only [sort3, id, if_neg h1, if_neg h2]
      exact ⟨⟨by linarith, by linarith⟩, fun x => trivial⟩

/-- Cardano/Viète: the three numbers computed are the roots of `x³ + a x² + b x + c` when it has only real roots -/
theorem roots3_spec (a b c : ℝ)
    (hdisc : (c + (2 * a * a * a - 9 * a * b) / 27) * (c + (2 * a * a * a - 9 * a * b) / 27) / 4 +
      (b - a * a / 3) * (b - a * a / 3) * (b - a * a / 3) / 27 ≤ 0) (x : ℝ) :
    (x - (roots3 a b c).1) * (x - (roots3 a b c).2.1) * (x - (roots3 a b c).2.2) = x ^ 3 + a * x ^ 2 + b * x + c := by
  unfold roots3
  dsimp only
  rw [min_eq_right hdisc]
  generalize hp : b - a * a / 3 = p at *
  generalize hq : c + (2 * a * a * a - 9 * a * b) / 27 = q at *
  generalize hD : q * q / 4 + p * p * p / 27 = D at *
  have hb : b = p + a * a / 3 := by linarith
  have hc : c = q - (2 * a * a * a - 9 * a * b) / 27 := by linarith
  set α := -q / 2 with hα
  set β := Real.sqrt (-D) with hβ
  have hβ2 : β * β = -D := Real.mul_self_sqrt (by linarith)
  have hr2 : α * α - D = -(p * p * p) / 27 := by rw [← hD, hα]; ring
  have hr0 : 0 ≤ α * α - D := by nlinarith [mul_self_nonneg α]
  set ρ := (α * α - D) ^ (1 / 6 : ℝ) with hρ
  have hρ0 : 0 ≤ ρ := Real.rpow_nonneg hr0 _
  have hρ6 : ρ ^ 6 = α * α - D := by
    rw [hρ, ← Real.rpow_natCast, ← Real.rpow_mul hr0]; norm_num
  set z : ℂ := ⟨α, β⟩ with hz
  have hnorm : ‖z‖ = ρ ^ 3 := by
    have h1 : ‖z‖ * ‖z‖ = ρ ^ 3 * ρ ^ 3 := by
      rw [Complex.norm_mul_self_eq_normSq, Complex.normSq_apply]
      show α * α + β * β = _
      rw [hβ2]; linear_combination -hρ6
    exact (mul_self_inj_of_nonneg (norm_nonneg _) (by positivity)).1 h1
  have hcos : ρ ^ 3 * Real.cos (Complex.arg z) = α := by
    rw [← hnorm]; exact Complex.norm_mul_cos_arg z
  have h3 : Real.cos (Complex.arg z) = 4 * Real.cos (Complex.arg z / 3) ^ 3 - 3 * Real.cos (Complex.arg z / 3) := by
    rw [← Real.cos_three_mul]; congr 1; ring
  have hsc := Real.sin_sq_add_cos_sq (Complex.arg z / 3)
  rw [h3] at hcos
  generalize Real.cos (Complex.arg z / 3) = C at *
  generalize Real.sin (Complex.arg z / 3) = S at *
  have hpρ : p = -3 * ρ ^ 2 := by
    have h1 : (ρ ^ 2) ^ 3 = (-p / 3) ^ 3 := by
      rw [← pow_mul]; rw [hρ6, hr2]; ring
    have h2 : ρ ^ 2 = -p / 3 := by
      have := (Odd.strictMono_pow (R := ℝ) (n := 3) (by decide)).injective h1
      exact this
    linarith
  have hqα : q = -2 * α := by rw [hα]; ring
  have h33 : Real.sqrt 3 ^ 2 = 3 := Real.sq_sqrt (by norm_num)
  generalize Real.sqrt 3 = w at *
  rw [hc, hb, hqα, ← hcos, hpρ]
  have hs : S ^ 2 = 1 - C ^ 2 := by linarith
  linear_combination (-(x + a/3 - 2*ρ*C) * ρ^2 * S^2) * h33 + (-3 * ρ^2 * (x + a/3 - 2*ρ*C)) * hs

variable {A V : Matrix (Fin 3) (Fin 3) ℝ} {l : Fin 3 → ℝ}

theorem det_shift (h : IsEigen A V l) (x : ℝ) :
    (x • (1 : Matrix (Fin 3) (Fin 3) ℝ) - A).det = (x - l 0) * (x - l 1) * (x - l 2) := by
  have hV : Vᵀ * V = 1 := mul_eq_one_comm.1 h.orth
  have e : x • (1 : Matrix (Fin 3) (Fin 3) ℝ) - A = Vᵀ * diagonal (fun i => x - l i) * V := by
    have : diagonal (fun i => x - l i) = x • (1 : Matrix (Fin 3) (Fin 3) ℝ) - diagonal l := by
      ext i j; by_cases hij : i = j
      · subst hij; simp
      · simp [hij]
    rw [this, Matrix.mul_sub, Matrix.sub_mul, h.prod, Matrix.mul_smul, Matrix.smul_mul, Matrix.mul_one, hV]
  have h2 : V.det * V.det = 1 := by
    have := congrArg det h.orth
    rwa [det_mul, det_transpose, det_one] at this
  rw [e, det_mul, det_mul, det_diagonal, det_transpose, Fin.prod_univ_three]
  linear_combination ((x - l 0) * (x - l 1) * (x - l 2)) * h2

theorem det_poly (m : Mat ℝ) (hm : (asM 3 3 m)ᵀ = asM 3 3 m) (x : ℝ) :
    (x • (1 : Matrix (Fin 3) (Fin 3) ℝ) - asM 3 3 m).det = x ^ 3 + cA m * x ^ 2 + cB m * x + cC m := by
  have h10 : m 1 0 = m 0 1 := congrFun (congrFun hm 0) 1
  have h20 : m 2 0 = m 0 2 := congrFun (congrFun hm 0) 2
  have h21 : m 2 1 = m 1 2 := congrFun (congrFun hm 1) 2
  rw [det_fin_three]
  simp only [Matrix.sub_apply, Matrix.smul_apply, smul_eq_mul, Matrix.one_apply, asM_apply, cA, cB, cC]
  simp [h10, h20, h21]
  ring

/-- the eigenvalues computed are the eigenvalues, in ascending order -/
theorem evals3_eq (m : Mat ℝ) (h : IsEigen (asM 3 3 m) V l) : evals3 m = (l 0, l 1, l 2) := by
  have hs : (asM 3 3 m)ᵀ = asM 3 3 m := by rw [← h.prod]; simp [transpose_mul, Matrix.mul_assoc]
  have hpoly : ∀ x, (x - l 0) * (x - l 1) * (x - l 2) = x ^ 3 + cA m * x ^ 2 + cB m * x + cC m := fun x => by
    rw [← det_shift h, det_poly m hs]
  have h0 := hpoly 0
  have h1 := hpoly 1
  have h2 := hpoly (-1)
  have ea : cA m = -(l 0 + l 1 + l 2) := by linear_combination (-1/2) * h1 + (-1/2) * h2 + h0
  have ec : cC m = -(l 0 * l 1 * l 2) := by linear_combination -h0
  have eb : cB m = l 0 * l 1 + l 0 * l 2 + l 1 * l 2 := by linear_combination (-1/2) * h1 + (1/2) * h2
  have hr := roots3_spec (cA m) (cB m) (cC m) (by
    rw [ea, eb, ec]
    have : (-(l 0 * l 1 * l 2) + (2 * -(l 0 + l 1 + l 2) * -(l 0 + l 1 + l 2) * -(l 0 + l 1 + l 2) - 9 * -(l 0 + l 1 + l 2) * (l 0 * l 1 + l 0 * l 2 + l 1 * l 2)) / 27) * (-(l 0 * l 1 * l 2) + (2 * -(l 0 + l 1 + l 2) * -(l 0 + l 1 + l 2) * -(l 0 + l 1 + l 2) - 9 * -(l 0 + l 1 + l 2) * (l 0 * l 1 + l 0 * l 2 + l 1 * l 2)) / 27) / 4 +
      (l 0 * l 1 + l 0 * l 2 + l 1 * l 2 - -(l 0 + l 1 + l 2) * -(l 0 + l 1 + l 2) / 3) * (l 0 * l 1 + l 0 * l 2 + l 1 * l 2 - -(l 0 + l 1 + l 2) * -(l 0 + l 1 + l 2) / 3) * (l 0 * l 1 + l 0 * l 2 + l 1 * l 2 - -(l 0 + l 1 + l 2) * -(l 0 + l 1 + l 2) / 3) / 27 =
      -(((l 0 - l 1) * (l 0 - l 2) * (l 1 - l 2)) ^ 2 / 108) := by ring
    rw [this]
    have := sq_nonneg ((l 0 - l 1) * (l 0 - l 2) * (l 1 - l 2))
    linarith)
  obtain ⟨s1, s2⟩ := sort3_spec (roots3 (cA m) (cB m) (cC m))
  obtain ⟨r0, r1, r2⟩ := sorted_unique s1 ⟨h.asc (show (0 : Fin 3) ≤ 1 by decide), h.asc (show (1 : Fin 3) ≤ 2 by decide)⟩
    (fun x => by rw [s2, hr, hpoly])
  unfold evals3
  rw [← r0, ← r1, ← r2]

/-- the product of the differences to the other eigenvalues -/
def gap (l : Fin 3 → ℝ) (k : Fin 3) : ℝ := ∏ j ∈ Finset.univ.erase k, (l j - l k)

theorem gap0 (l : Fin 3 → ℝ) : gap l 0 = (l 1 - l 0) * (l 2 - l 0) := by
  unfold gap; rw [show Finset.univ.erase (0 : Fin 3) = {1, 2} by decide, Finset.prod_pair (by decide)]
theorem gap1 (l : Fin 3 → ℝ) : gap l 1 = (l 0 - l 1) * (l 2 - l 1) := by
  unfold gap; rw [show Finset.univ.erase (1 : Fin 3) = {0, 2} by decide, Finset.prod_pair (by decide)]
theorem gap2 (l : Fin 3 → ℝ) : gap l 2 = (l 0 - l 2) * (l 1 - l 2) := by
  unfold gap; rw [show Finset.univ.erase (2 : Fin 3) = {0, 1} by decide, Finset.prod_pair (by decide)]

/-- the adjugate of `A - l_k` is a multiple of the projection on the eigenvector -/
theorem adj_eq (h : IsEigen A V l) (k i j : Fin 3) :
    adjugate (A - l k • (1 : Matrix (Fin 3) (Fin 3) ℝ)) i j = gap l k * V k i * V k j := by
  have hV : Vᵀ * V = 1 := mul_eq_one_comm.1 h.orth
  have e : A - l k • (1 : Matrix (Fin 3) (Fin 3) ℝ) = Vᵀ * diagonal (fun i => l i - l k) * V := by
    have : diagonal (fun i => l i - l k) = diagonal l - l k • (1 : Matrix (Fin 3) (Fin 3) ℝ) := by
      ext i j; by_cases hij : i = j
      · subst hij; simp
      · simp [hij]
    rw [this, Matrix.mul_sub, Matrix.sub_mul, h.prod, Matrix.mul_smul, Matrix.smul_mul, Matrix.mul_one, hV]
  have hadj : adjugate V = V.det • Vᵀ := by
    calc adjugate V = adjugate V * (V * Vᵀ) := by rw [h.orth, Matrix.mul_one]
      _ = _ := by rw [← Matrix.mul_assoc, adjugate_mul, Matrix.smul_mul, Matrix.one_mul]
  have h2 : V.det * V.det = 1 := by
    have := congrArg det h.orth
    rwa [det_mul, det_transpose, det_one] at this
  have hadjT : adjugate Vᵀ = V.det • V := by rw [← adjugate_transpose, hadj, transpose_smul, transpose_transpose]
  rw [e, adjugate_mul_distrib, adjugate_mul_distrib, hadj, hadjT, adjugate_diagonal]
  have hz : ∀ i : Fin 3, ∏ j ∈ Finset.univ.erase i, (l j - l k) = if i = k then gap l k else 0 := by
    intro i
    by_cases hik : i = k
    · subst hik; rw [if_pos rfl]; rfl
    · rw [if_neg hik]
      exact Finset.prod_eq_zero (Finset.mem_erase.2 ⟨Ne.symm hik, Finset.mem_univ k⟩) (sub_self _)
  simp only [hz, Matrix.smul_mul, Matrix.mul_smul, smul_smul, h2, one_smul]
  rw [mul_apply]
  simp only [diagonal_mul, transpose_apply]
  rw [Finset.sum_eq_single k]
  · rw [if_pos rfl]; ring
  · intro b _ hb; rw [if_neg hb]; ring
  · intro hk; exact absurd (Finset.mem_univ k) hk

/-- the three candidate eigenvectors are multiples of the true one -/
theorem vec_eq (m : Mat ℝ) (h : IsEigen (asM 3 3 m) V l) (k i : Fin 3) :
    vecZ m (l k) i = gap l k * V k 2 * V k i ∧ vecY m (l k) i = gap l k * V k 1 * V k i ∧
    vecX m (l k) i = gap l k * V k 0 * V k i := by
  have hs : (asM 3 3 m)ᵀ = asM 3 3 m := by rw [← h.prod]; simp [transpose_mul, Matrix.mul_assoc]
  have h10 : m 1 0 = m 0 1 := congrFun (congrFun hs 0) 1
  have h20 : m 2 0 = m 0 2 := congrFun (congrFun hs 0) 2
  have h21 : m 2 1 = m 1 2 := congrFun (congrFun hs 1) 2
  have a0 := adj_eq h k i 0
  have a1 := adj_eq h k i 1
  have a2 := adj_eq h k i 2
  rw [adjugate_fin_three] at a0 a1 a2
  generalize gap l k = g at *
  generalize l k = t at *
  fin_cases i <;> simp [vecZ, vecY, vecX, mk3] at a0 a1 a2 ⊢ <;> simp only [h10, h20, h21] at a0 a1 a2 <;>
    exact ⟨by linear_combination a2, by linear_combination a1, by linear_combination a0⟩

/-- every `row3` is a multiple of the eigenvector; which multiple -/
theorem row3_eq (m : Mat ℝ) (h : IsEigen (asM 3 3 m) V l) (eps : ℝ) (k : Fin 3) :
    ∃ t, (∀ i : Fin 3, (row3 m eps (l k)).1 i = t * V k i) ∧
      (row3 m eps (l k)).2 = |t| * (|V k 0| + |V k 1| + |V k 2|) ∧
      ((eps ≤ |t| * (|V k 0| + |V k 1| + |V k 2|) ∧ t = gap l k * V k 2) ∨
        (eps ≤ |t| * (|V k 0| + |V k 1| + |V k 2|) ∧ t = gap l k * (V k 2 + V k 1)) ∨
        (|gap l k * V k 2| * (|V k 0| + |V k 1| + |V k 2|) < eps ∧
          |gap l k * (V k 2 + V k 1)| * (|V k 0| + |V k 1| + |V k 2|) < eps ∧
          t = gap l k * (V k 2 + V k 1 + V k 0))) := by
  have hn : ∀ (e : Vec ℝ) (t : ℝ), (∀ i : Fin 3, e i = t * V k i) →
      norm1 3 e = |t| * (|V k 0| + |V k 1| + |V k 2|) := by
    intro e t he
    have e0 := he 0
    have e1 := he 1
    have e2 := he 2
    simp only [Fin.val_zero, Fin.val_one, Fin.val_two] at e0 e1 e2
    simp only [norm1, forN, e0, e1, e2, abs_mul]; ring
  have hz : ∀ i : Fin 3, vecZ m (l k) i = (gap l k * V k 2) * V k i := fun i => (vec_eq m h k i).1
  have hzy : ∀ i : Fin 3, add3 (vecZ m (l k)) (vecY m (l k)) i = (gap l k * (V k 2 + V k 1)) * V k i := by
    intro i
    have a := (vec_eq m h k i).1; have b := (vec_eq m h k i).2.1
    fin_cases i <;> simp [add3, mk3] at a b ⊢ <;> rw [a, b] <;> ring
  have hzyx : ∀ i : Fin 3, add3 (add3 (vecZ m (l k)) (vecY m (l k))) (vecX m (l k)) i =
      (gap l k * (V k 2 + V k 1 + V k 0)) * V k i := by
    intro i
    have a := hzy i; have b := (vec_eq m h k i).2.2
    fin_cases i <;> simp at a b ⊢ <;> rw [add3] <;> simp [mk3] <;> rw [a, b] <;> ring
  unfold row3
  dsimp only
  rw [hn _ _ hz]
  by_cases h1 : |gap l k * V k 2| * (|V k 0| + |V k 1| + |V k 2|) < eps
  · rw [if_pos h1]
    dsimp only
    rw [hn _ _ hzy]
    by_cases h2 : |gap l k * (V k 2 + V k 1)| * (|V k 0| + |V k 1| + |V k 2|) < eps
    · rw [if_pos h2]
      exact ⟨_, hzyx, hn _ _ hzyx, Or.inr (Or.inr ⟨h1, h2, rfl⟩)⟩
    · rw [if_neg h2]
      exact ⟨_, hzy, rfl, Or.inr (Or.inl ⟨not_lt.1 h2, rfl⟩)⟩
  · rw [if_neg h1]
    dsimp only
    rw [if_neg h1]
    exact ⟨_, hz, rfl, Or.inl ⟨not_lt.1 h1, rfl⟩⟩

theorem row_unit (h : IsEigen A V l) (k : Fin 3) : V k 0 * V k 0 + V k 1 * V k 1 + V k 2 * V k 2 = 1 := by
  have := congrFun (congrFun h.orth k) k
  rw [mul_apply, Fin.sum_univ_three, one_apply_eq] at this
  exact this

theorem abs_sum_ge_one {x y z : ℝ} (h : x * x + y * y + z * z = 1) : 1 ≤ |x| + |y| + |z| := by
  have hx := abs_nonneg x
  have hy := abs_nonneg y
  have hz := abs_nonneg z
  have : (1:ℝ) ≤ (|x| + |y| + |z|) ^ 2 := by
    have e : (|x| + |y| + |z|) ^ 2 = x * x + y * y + z * z + 2 * (|x| * |y| + |x| * |z| + |y| * |z|) := by
      rw [← abs_mul_abs_self x, ← abs_mul_abs_self y, ← abs_mul_abs_self z]; ring
    rw [e, h]; nlinarith [mul_nonneg hx hy, mul_nonneg hx hz, mul_nonneg hy hz]
  nlinarith

/-- an eigenvalue separated from the others gives a row that is not small -/
theorem row3_large (m : Mat ℝ) (h : IsEigen (asM 3 3 m) V l) (eps : ℝ) (k : Fin 3)
    (hg : 4 * eps ≤ |gap l k|) : eps ≤ (row3 m eps (l k)).2 := by
  obtain ⟨t, -, h2, h3⟩ := row3_eq m h eps k
  rw [h2]
  have hu := row_unit h k
  have hS := abs_sum_ge_one hu
  generalize |V k 0| + |V k 1| + |V k 2| = S at *
  generalize V k 0 = x at *
  generalize V k 1 = y at *
  generalize V k 2 = z at *
  by_cases he : eps ≤ 0
  · exact le_trans he (mul_nonneg (abs_nonneg _) (by linarith))
  have he : 0 < eps := not_le.1 he
  have hgp : 0 < |gap l k| := by linarith
  -- a factor below the threshold is at most 1/4
  have small : ∀ w : ℝ, |gap l k * w| * S < eps → |w| < 1 / 4 := by
    intro w hw
    by_contra hc
    rw [not_lt] at hc
    rw [abs_mul] at hw
    have h1 : |gap l k| * (1/4) ≤ |gap l k| * |w| := mul_le_mul_of_nonneg_left hc hgp.le
    have h2 : |gap l k| * |w| * 1 ≤ |gap l k| * |w| * S :=
      mul_le_mul_of_nonneg_left hS (mul_nonneg hgp.le (abs_nonneg _))
    linarith
  by_contra hlt
  rw [not_le] at hlt
  rcases h3 with ⟨ha, -⟩ | ⟨ha, -⟩ | ⟨ha, hb, rfl⟩
  · exact absurd ha (not_le.2 hlt)
  · exact absurd ha (not_le.2 hlt)
  · have hz := small _ ha
    have hzy := small _ hb
    have hzyx := small _ hlt
    rw [abs_lt] at hz hzy hzyx
    nlinarith

end TooN.SymEigen
