import Verif.Spec.Lie
import Mathlib.Analysis.Normed.Algebra.MatrixExponential
import Mathlib.Analysis.SpecialFunctions.Exponential
import Mathlib.Analysis.Calculus.MeanValue
import Mathlib.Analysis.SpecialFunctions.Trigonometric.Deriv
import Mathlib.Analysis.SpecialFunctions.ExpDeriv
import Mathlib.LinearAlgebra.Matrix.Notation
import Mathlib.Tactic.FinCases
import Mathlib.Tactic.LinearCombination
import Mathlib.Tactic.FieldSimp
/-!
# Closed forms of matrix exponentials

`exp` is Mathlib's `NormedSpace.exp`, the sum of the exponential series.
-/
namespace TooN.Lie
open Matrix NormedSpace
open scoped Matrix.Norms.Operator

variable {n : Type} [Fintype n] [DecidableEq n]

/-- a solution of `F' = K F`, `F(0) = 1` is the exponential -/
theorem exp_eq_of_deriv (K : Matrix n n ℝ) (F : ℝ → Matrix n n ℝ) (h0 : F 0 = 1)
    (hF : ∀ t, HasDerivAt F (K * F t) t) (t : ℝ) : exp (t • K) = F t := by
  have hG : ∀ t, HasDerivAt (fun u : ℝ => exp (u • (-K)) * F u) 0 t := by
    intro t
    have h := (hasDerivAt_exp_smul_const (𝕂 := ℝ) (-K) t).mul (hF t)
    have e : exp (t • (-K)) * (-K) * F t + exp (t • (-K)) * (K * F t) = 0 := by
      rw [Matrix.mul_assoc, ← Matrix.mul_add, Matrix.neg_mul, neg_add_cancel, Matrix.mul_zero]
    exact h.congr_deriv e
  have hc := is_const_of_deriv_eq_zero (fun t => (hG t).differentiableAt) (fun t => (hG t).deriv) t 0
  have e0 : exp ((0:ℝ) • (-K)) * F 0 = 1 := by rw [h0, zero_smul, NormedSpace.exp_zero, one_mul]
  beta_reduce at hc
  rw [e0] at hc
  have e1 : exp (t • K) * exp (t • (-K)) = 1 := by
    rw [← Matrix.exp_add_of_commute _ _ (by rw [smul_neg]; exact (Commute.refl _).neg_right), smul_neg, add_neg_cancel,
      NormedSpace.exp_zero]
  calc exp (t • K) = exp (t • K) * (exp (t • (-K)) * F t) := by rw [hc, Matrix.mul_one]
    _ = F t := by rw [← Matrix.mul_assoc, e1, Matrix.one_mul]

theorem skew_cube (w : Fin 3 → ℝ) :
    skew w * (skew w * skew w) = -(w 0 * w 0 + w 1 * w 1 + w 2 * w 2) • skew w := by
  ext i j
  fin_cases i <;> fin_cases j <;> simp [skew, Matrix.mul_apply, Fin.sum_univ_three] <;> ring

theorem exp_skew (w : Fin 3 → ℝ) (θ : ℝ) (hθ : θ * θ = w 0 * w 0 + w 1 * w 1 + w 2 * w 2) (h : θ ≠ 0) :
    exp (skew w) = 1 + (Real.sin θ / θ) • skew w + ((1 - Real.cos θ) / (θ * θ)) • (skew w * skew w) := by
  have := exp_eq_of_deriv (skew w)
    (fun u => 1 + (Real.sin (θ * u) / θ) • skew w + ((1 - Real.cos (θ * u)) / (θ * θ)) • (skew w * skew w))
    (by simp) (fun u => ?_) 1
  · simpa using this
  have hi : HasDerivAt (fun u => θ * u) θ u := by simpa using (hasDerivAt_id u).const_mul θ
  have ha : HasDerivAt (fun u => Real.sin (θ * u) / θ) (Real.cos (θ * u)) u := by
    have := (hi.sin).div_const θ
    exact this.congr_deriv (by field_simp)
  have hb : HasDerivAt (fun u => (1 - Real.cos (θ * u)) / (θ * θ)) (Real.sin (θ * u) / θ) u := by
    have := ((hi.cos).const_sub 1).div_const (θ * θ)
    exact this.congr_deriv (by field_simp)
  have hF := ((ha.smul_const (skew w)).const_add 1).add (hb.smul_const (skew w * skew w))
  refine hF.congr_deriv ?_
  rw [Matrix.mul_add, Matrix.mul_add, Matrix.mul_one, Matrix.mul_smul, Matrix.mul_smul, skew_cube, ← hθ, smul_smul]
  have : (1 - Real.cos (θ * u)) / (θ * θ) * -(θ * θ) = Real.cos (θ * u) - 1 := by field_simp; ring
  rw [this, sub_smul, one_smul]
  abel


variable {m : Nat}

theorem aug_mul (c d : ℝ) (X Y : Matrix (Fin m) (Fin m) ℝ) (t z : Fin m → ℝ) :
    aug c X t * aug d Y z = aug (c * d) (X * Y) (X.mulVec z + d • t) := by
  ext i j
  refine Fin.lastCases ?_ (fun i => ?_) i <;> refine Fin.lastCases ?_ (fun j => ?_) j <;>
    simp [aug, Matrix.mul_apply, Fin.sum_univ_castSucc, Matrix.mulVec, dotProduct, mul_comm]

theorem blk_mul (X Y : Matrix (Fin m) (Fin m) ℝ) (t z : Fin m → ℝ) : blk X t * blk Y z = blk (X * Y) (X.mulVec z) := by
  simp [blk, aug_mul]

theorem blk_mul_hom (X Y : Matrix (Fin m) (Fin m) ℝ) (t z : Fin m → ℝ) : blk X t * hom Y z = blk (X * Y) (X.mulVec z + t) := by
  simp [blk, hom, aug_mul]

theorem hom_mul_blk (X Y : Matrix (Fin m) (Fin m) ℝ) (t z : Fin m → ℝ) : hom X t * blk Y z = blk (X * Y) (X.mulVec z) := by
  simp [blk, hom, aug_mul]

theorem hom_mul (X Y : Matrix (Fin m) (Fin m) ℝ) (t z : Fin m → ℝ) : hom X t * hom Y z = hom (X * Y) (t + X.mulVec z) := by
  simp [hom, aug_mul, add_comm]

theorem hom_one : hom (1 : Matrix (Fin m) (Fin m) ℝ) 0 = 1 := by
  ext i j
  refine Fin.lastCases ?_ (fun i => ?_) i <;> refine Fin.lastCases ?_ (fun j => ?_) j <;>
    simp [hom, aug, Matrix.one_apply, Fin.castSucc_ne_last, (Fin.castSucc_ne_last _).symm]

theorem aug_inj {c : ℝ} {X Y : Matrix (Fin m) (Fin m) ℝ} {t z : Fin m → ℝ} : aug c X t = aug c Y z ↔ X = Y ∧ t = z := by
  constructor
  · intro h
    constructor
    · ext i j
      simpa [aug] using congrFun (congrFun h i.castSucc) j.castSucc
    · funext i
      simpa [aug] using congrFun (congrFun h i.castSucc) (Fin.last m)
  · rintro ⟨rfl, rfl⟩; rfl

theorem hom_inj {X Y : Matrix (Fin m) (Fin m) ℝ} {t z : Fin m → ℝ} : hom X t = hom Y z ↔ X = Y ∧ t = z := aug_inj

/-- `hom` has the obvious derivative -/
theorem hasDerivAt_hom {E : ℝ → Matrix (Fin m) (Fin m) ℝ} {V : ℝ → Fin m → ℝ} {E' : Matrix (Fin m) (Fin m) ℝ}
    {V' : Fin m → ℝ} {u : ℝ} (hE : ∀ i j, HasDerivAt (fun u => E u i j) (E' i j) u) (hV : ∀ i, HasDerivAt (fun u => V u i) (V' i) u) :
    HasDerivAt (fun u => hom (E u) (V u)) (blk E' V') u := by
  have key : ∀ i j, HasDerivAt (fun u => hom (E u) (V u) i j) (blk E' V' i j) u := by
    intro i j
    refine Fin.lastCases ?_ (fun i => ?_) i <;> refine Fin.lastCases ?_ (fun j => ?_) j <;> simp only [hom, blk, aug, Fin.lastCases_last, Fin.lastCases_castSucc]
    · exact hasDerivAt_const _ _
    · exact hasDerivAt_const _ _
    · exact hV _
    · exact hE _ _
  have h2 : HasDerivAt (fun u => ∑ i, ∑ j, (hom (E u) (V u) i j) • Matrix.single i j (1:ℝ))
      (∑ i, ∑ j, (blk E' V' i j) • Matrix.single i j (1:ℝ)) u := by
    refine HasDerivAt.fun_sum fun i _ => HasDerivAt.fun_sum fun j _ => (key i j).smul_const _
  have e : ∀ M : Matrix (Fin (m+1)) (Fin (m+1)) ℝ, ∑ i, ∑ j, (M i j) • Matrix.single i j (1:ℝ) = M := by
    intro M
    conv_rhs => rw [Matrix.matrix_eq_sum_single M]
    simp
  simpa only [e] using h2

/-- the exponential of an affine generator, from the matrix functions `E = exp(uX)` and `V = ∫ E` -/
theorem exp_blk (X : Matrix (Fin m) (Fin m) ℝ) (t : Fin m → ℝ) (E V : ℝ → Matrix (Fin m) (Fin m) ℝ)
    (h0 : E 0 = 1) (v0 : V 0 = 0) (hE : ∀ u i j, HasDerivAt (fun u => E u i j) ((X * E u) i j) u)
    (hV : ∀ u i j, HasDerivAt (fun u => V u i j) ((X * V u + 1) i j) u) :
    exp (blk X t) = hom (E 1) ((V 1).mulVec t) := by
  have := exp_eq_of_deriv (blk X t) (fun u => hom (E u) ((V u).mulVec t))
    (by beta_reduce; rw [h0, v0, Matrix.zero_mulVec, hom_one]) (fun u => ?_) 1
  · simpa using this
  rw [blk_mul_hom]
  refine hasDerivAt_hom (hE u) fun i => ?_
  have h2 : HasDerivAt (fun u => ∑ j, V u i j * t j) (∑ j, (X * V u + 1) i j * t j) u :=
    HasDerivAt.fun_sum fun j _ => (hV u i j).mul_const _
  refine h2.congr_deriv ?_
  have : ∑ j, (X * V u + 1) i j * t j = ((X * V u + 1).mulVec t) i := rfl
  rw [this, Matrix.add_mulVec, Matrix.one_mulVec, Matrix.mulVec_mulVec]

theorem hasDerivAt_comb (W : Matrix (Fin m) (Fin m) ℝ) {a b c : ℝ → ℝ} {a' b' c' u : ℝ} (ha : HasDerivAt a a' u)
    (hb : HasDerivAt b b' u) (hc : HasDerivAt c c' u) (i j : Fin m) :
    HasDerivAt (fun u => (a u • (1 : Matrix (Fin m) (Fin m) ℝ) + b u • W + c u • (W * W)) i j)
      ((a' • (1 : Matrix (Fin m) (Fin m) ℝ) + b' • W + c' • (W * W)) i j) u := by
  simp only [Matrix.add_apply, Matrix.smul_apply, smul_eq_mul]
  exact ((ha.mul_const _).add (hb.mul_const _)).add (hc.mul_const _)

/-- the exponential of `[W + s 1, t; 0, 0]` for `W³ = -θ² W`, from scalar coefficient functions -/
theorem exp_blk_coeff (W : Matrix (Fin m) (Fin m) ℝ) (q s : ℝ) (hW : W * (W * W) = -q • W) (t : Fin m → ℝ)
    (e0 e1 e2 c0 c1 c2 : ℝ → ℝ) (h0 : e0 0 = 1 ∧ e1 0 = 0 ∧ e2 0 = 0) (h1 : c0 0 = 0 ∧ c1 0 = 0 ∧ c2 0 = 0)
    (de : ∀ u, HasDerivAt e0 (s * e0 u) u ∧ HasDerivAt e1 (e0 u + s * e1 u - q * e2 u) u ∧ HasDerivAt e2 (e1 u + s * e2 u) u)
    (dc : ∀ u, HasDerivAt c0 (e0 u) u ∧ HasDerivAt c1 (e1 u) u ∧ HasDerivAt c2 (e2 u) u)
    (hc : ∀ u, e0 u = 1 + s * c0 u ∧ e1 u = c0 u + s * c1 u - q * c2 u ∧ e2 u = c1 u + s * c2 u) :
    exp (blk (W + s • (1 : Matrix (Fin m) (Fin m) ℝ)) t) =
      hom (e0 1 • (1 : Matrix (Fin m) (Fin m) ℝ) + e1 1 • W + e2 1 • (W * W))
        ((c0 1 • (1 : Matrix (Fin m) (Fin m) ℝ) + c1 1 • W + c2 1 • (W * W)).mulVec t) := by
  have key : ∀ a b c : ℝ, (W + s • (1 : Matrix (Fin m) (Fin m) ℝ)) * (a • (1 : Matrix (Fin m) (Fin m) ℝ) + b • W + c • (W * W)) =
      (s * a) • (1 : Matrix (Fin m) (Fin m) ℝ) + (a + s * b - q * c) • W + (b + s * c) • (W * W) := by
    intro a b c
    simp only [Matrix.add_mul, Matrix.mul_add, Matrix.mul_smul, Matrix.smul_mul, Matrix.mul_one, Matrix.one_mul, hW]
    module
  refine exp_blk (W + s • (1 : Matrix (Fin m) (Fin m) ℝ)) t (fun u => e0 u • (1 : Matrix (Fin m) (Fin m) ℝ) + e1 u • W + e2 u • (W * W))
    (fun u => c0 u • (1 : Matrix (Fin m) (Fin m) ℝ) + c1 u • W + c2 u • (W * W)) ?_ ?_ ?_ ?_
  · simp [h0.1, h0.2.1, h0.2.2]
  · simp [h1.1, h1.2.1, h1.2.2]
  · intro u i j
    rw [key]
    exact hasDerivAt_comb W (de u).1 (de u).2.1 (de u).2.2 i j
  · intro u i j
    have : (W + s • (1 : Matrix (Fin m) (Fin m) ℝ)) * (c0 u • (1 : Matrix (Fin m) (Fin m) ℝ) + c1 u • W + c2 u • (W * W)) + 1 =
        e0 u • (1 : Matrix (Fin m) (Fin m) ℝ) + e1 u • W + e2 u • (W * W) := by
      rw [key, (hc u).1, (hc u).2.1, (hc u).2.2]; module
    rw [this]
    exact hasDerivAt_comb W (dc u).1 (dc u).2.1 (dc u).2.2 i j

/-- no scaling: the exponential of `[W, t; 0, 0]` -/
theorem exp_blk_rigid (W : Matrix (Fin m) (Fin m) ℝ) (θ : ℝ) (h : θ ≠ 0) (hW : W * (W * W) = -(θ * θ) • W) (t : Fin m → ℝ) :
    exp (blk W t) = hom (1 + (Real.sin θ / θ) • W + ((1 - Real.cos θ) / (θ * θ)) • (W * W))
      ((1 + ((1 - Real.cos θ) / (θ * θ)) • W + ((1 - Real.sin θ / θ) / (θ * θ)) • (W * W)).mulVec t) := by
  have hi : ∀ u, HasDerivAt (fun u => θ * u) θ u := fun u => by simpa using (hasDerivAt_id u).const_mul θ
  have := exp_blk_coeff W (θ * θ) 0 hW t (fun _ => 1) (fun u => Real.sin (θ * u) / θ) (fun u => (1 - Real.cos (θ * u)) / (θ * θ))
    (fun u => u) (fun u => (1 - Real.cos (θ * u)) / (θ * θ)) (fun u => (u - Real.sin (θ * u) / θ) / (θ * θ)) (by simp) (by simp) ?_ ?_ ?_
  · simpa using this
  · intro u
    refine ⟨(hasDerivAt_const u (1:ℝ)).congr_deriv (by ring), ?_, ?_⟩
    · exact (((hi u).sin).div_const θ).congr_deriv (by field_simp; ring)
    · exact ((((hi u).cos).const_sub 1).div_const (θ * θ)).congr_deriv (by field_simp; ring)
  · intro u
    refine ⟨hasDerivAt_id u, ?_, ?_⟩
    · exact ((((hi u).cos).const_sub 1).div_const (θ * θ)).congr_deriv (by field_simp)
    · exact (((hasDerivAt_id u).sub (((hi u).sin).div_const θ)).div_const (θ * θ)).congr_deriv (by field_simp)
  · intro u
    refine ⟨by ring, ?_, ?_⟩ <;> field_simp <;> ring

/-- with scaling: the exponential of `[W + s 1, t; 0, 0]` -/
theorem exp_blk_sim (W : Matrix (Fin m) (Fin m) ℝ) (θ s : ℝ) (h : θ ≠ 0) (hs : s ≠ 0) (hW : W * (W * W) = -(θ * θ) • W) (t : Fin m → ℝ) :
    exp (blk (W + s • (1 : Matrix (Fin m) (Fin m) ℝ)) t) =
      hom (Real.exp s • (1 + (Real.sin θ / θ) • W + ((1 - Real.cos θ) / (θ * θ)) • (W * W)))
      ((((Real.exp s - 1) / s) • (1 : Matrix (Fin m) (Fin m) ℝ) +
        ((Real.exp s * Real.sin θ * s + (1 - Real.exp s * Real.cos θ) * θ) / (s * s + θ * θ) / θ) • W +
        (((Real.exp s - 1) / s - ((Real.exp s * Real.cos θ - 1) * s + Real.exp s * Real.sin θ * θ) / (s * s + θ * θ)) / (θ * θ)) •
          (W * W)).mulVec t) := by
  have hi : ∀ u, HasDerivAt (fun u => θ * u) θ u := fun u => by simpa using (hasDerivAt_id u).const_mul θ
  have hx : ∀ u, HasDerivAt (fun u => Real.exp (s * u)) (Real.exp (s * u) * s) u := fun u => by
    have : HasDerivAt (fun u => s * u) s u := by simpa using (hasDerivAt_id u).const_mul s
    exact this.exp
  have hq : s * s + θ * θ ≠ 0 := (add_pos (mul_self_pos.2 hs) (mul_self_pos.2 h)).ne'
  have hq' : s ^ 2 + θ ^ 2 ≠ 0 := by positivity
  have ha := fun u => (hx u).mul (hi u).sin
  have hb := fun u => (hx u).mul (hi u).cos
  have := exp_blk_coeff W (θ * θ) s hW t (fun u => Real.exp (s * u)) (fun u => Real.exp (s * u) * Real.sin (θ * u) / θ)
    (fun u => (Real.exp (s * u) - Real.exp (s * u) * Real.cos (θ * u)) / (θ * θ))
    (fun u => (Real.exp (s * u) - 1) / s)
    (fun u => (Real.exp (s * u) * Real.sin (θ * u) * s + (1 - Real.exp (s * u) * Real.cos (θ * u)) * θ) / (s * s + θ * θ) / θ)
    (fun u => ((Real.exp (s * u) - 1) / s -
      ((Real.exp (s * u) * Real.cos (θ * u) - 1) * s + Real.exp (s * u) * Real.sin (θ * u) * θ) / (s * s + θ * θ)) / (θ * θ))
    (by simp) (by simp) ?_ ?_ ?_
  · simp only [mul_one] at this
    rw [this]
    have e1 : (Real.exp s - Real.exp s * Real.cos θ) / (θ * θ) = Real.exp s * ((1 - Real.cos θ) / (θ * θ)) := by ring
    rw [e1, mul_div_assoc, smul_add, smul_add, smul_smul, smul_smul]
  · intro u
    refine ⟨(hx u).congr_deriv (by ring), ?_, ?_⟩
    · exact ((ha u).div_const θ).congr_deriv (by field_simp; ring)
    · exact (((hx u).sub (hb u)).div_const (θ * θ)).congr_deriv (by field_simp; ring)
  · intro u
    refine ⟨(((hx u).sub_const 1).div_const s).congr_deriv (by field_simp), ?_, ?_⟩
    · refine (((((ha u).mul_const s).add (((hb u).const_sub 1).mul_const θ)).div_const (s * s + θ * θ)).div_const θ).congr_deriv ?_
      field_simp; ring
    · refine (((((hx u).sub_const 1).div_const s).sub
        (((((hb u).sub_const 1).mul_const s).add ((ha u).mul_const θ)).div_const (s * s + θ * θ))).div_const (θ * θ)).congr_deriv ?_
      field_simp; ring
  · intro u
    refine ⟨by field_simp; ring, ?_, ?_⟩ <;> field_simp <;> ring

/-- no rotation: the exponential of `[s 1, t; 0, 0]` -/
theorem exp_blk_scale (s : ℝ) (hs : s ≠ 0) (t : Fin m → ℝ) :
    exp (blk (s • (1 : Matrix (Fin m) (Fin m) ℝ)) t) = hom (Real.exp s • (1 : Matrix (Fin m) (Fin m) ℝ)) (((Real.exp s - 1) / s) • t) := by
  have := exp_blk_sim 0 1 s one_ne_zero hs (by simp) t
  simpa [Matrix.smul_mulVec] using this

theorem exp_blk_trans (t : Fin m → ℝ) : exp (blk (0 : Matrix (Fin m) (Fin m) ℝ) t) = hom 1 t := by
  have := exp_blk_rigid 0 1 one_ne_zero (by simp) t
  simpa using this

end TooN.Lie
