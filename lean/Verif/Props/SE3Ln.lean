import Verif.Props.SE3
import Verif.Props.SO3Ln
/-!
# C39: SE3 logarithm and the derivative of the exponential
-/
set_option linter.unusedSectionVars false
namespace TooN.Lie
open Matrix

/-- product of two polynomials in `W` with `W³ = -q W` -/
theorem poly_mul {n : Nat} (W : M n) (q : ℝ) (hW : W * (W * W) = -q • W) (a b c d e f : ℝ) :
    (a • (1 : M n) + b • W + c • (W * W)) * (d • (1 : M n) + e • W + f • (W * W)) =
      (a * d) • (1 : M n) + (a * e + b * d - q * (b * f + c * e)) • W + (a * f + b * e + c * d - q * (c * f)) • (W * W) := by
  have h3 : W * W * W = -q • W := by rw [Matrix.mul_assoc]; exact hW
  have h4 : W * W * (W * W) = -q • (W * W) := by rw [← Matrix.mul_assoc, h3, Matrix.smul_mul]
  simp only [Matrix.add_mul, Matrix.mul_add, Matrix.mul_smul, Matrix.smul_mul, Matrix.mul_one, Matrix.one_mul, hW, h3, h4]
  module

theorem half_angle (θ : ℝ) : Real.sin θ = 2 * Real.sin (θ / 2) * Real.cos (θ / 2) ∧
    Real.cos θ = 1 - 2 * (Real.sin (θ / 2) * Real.sin (θ / 2)) := by
  constructor
  · conv_lhs => rw [show θ = 2 * (θ / 2) by ring, Real.sin_two_mul]
  · conv_lhs => rw [show θ = 2 * (θ / 2) by ring, Real.cos_two_mul]
    have := Real.sin_sq_add_cos_sq (θ / 2)
    nlinarith

/-- the inverse of the translation matrix of the exponential -/
theorem V_inverse (W : M 3) (θ : ℝ) (h : θ ≠ 0) (hs : Real.sin (θ / 2) ≠ 0) (hW : W * (W * W) = -(θ * θ) • W) :
    (1 + ((1 - Real.cos θ) / (θ * θ)) • W + ((1 - Real.sin θ / θ) / (θ * θ)) • (W * W)) *
      ((1:ℝ) • (1 : M 3) + (-1 / 2 : ℝ) • W + ((1 - θ * Real.cos (θ / 2) / (2 * Real.sin (θ / 2))) / (θ * θ)) • (W * W)) = 1 := by
  have := poly_mul W (θ * θ) hW 1 ((1 - Real.cos θ) / (θ * θ)) ((1 - Real.sin θ / θ) / (θ * θ)) 1 (-1 / 2)
    ((1 - θ * Real.cos (θ / 2) / (2 * Real.sin (θ / 2))) / (θ * θ))
  rw [one_smul] at this ⊢
  rw [this, (half_angle θ).1, (half_angle θ).2]
  have sc := Real.sin_sq_add_cos_sq (θ / 2)
  generalize Real.sin (θ / 2) = S at *
  generalize Real.cos (θ / 2) = K at *
  have e1 : (1 * (-1 / 2) + (1 - (1 - 2 * (S * S))) / (θ * θ) * 1 - θ * θ * ((1 - (1 - 2 * (S * S))) / (θ * θ) *
      ((1 - θ * K / (2 * S)) / (θ * θ)) + (1 - 2 * S * K / θ) / (θ * θ) * (-1 / 2)) : ℝ) = 0 := by
    field_simp; ring
  have e2 : (1 * ((1 - θ * K / (2 * S)) / (θ * θ)) + (1 - (1 - 2 * (S * S))) / (θ * θ) * (-1 / 2) +
      (1 - 2 * S * K / θ) / (θ * θ) * 1 - θ * θ * ((1 - 2 * S * K / θ) / (θ * θ) * ((1 - θ * K / (2 * S)) / (θ * θ))) : ℝ) = 0 := by
    field_simp
    linear_combination (-2:ℝ) * θ * S * sc
  rw [e1, e2]
  simp

/-- `2*shtot` in `SE3::ln` -/
noncomputable def lnSh (θ : ℝ) : ℝ := if θ > 0.00001 then Real.sin (θ / 2) / θ else 0.5
/-- the factor of `(t·rot) rot` in `SE3::ln` -/
noncomputable def lnK (θ q : ℝ) : ℝ := if θ > 0.001 then (1 - 2 * lnSh θ) / q else 1 / 24

theorem lnSh_pos {θ : ℝ} (h0 : 0 ≤ θ) (h1 : θ ≤ Real.pi) : 0 < lnSh θ := by
  unfold lnSh
  split_ifs with h
  · have : 0 < θ := lt_trans (by norm_num) h
    exact div_pos (Real.sin_pos_of_pos_of_lt_pi (by linarith) (by linarith [Real.pi_pos])) this
  · norm_num

/-- `SE3::ln` as a polynomial in the cross product matrix of the rotation's logarithm -/
theorem se3Ln_eq (a : SE 3) (rot : V 3) (h : so3Ln a.R = some rot) (hb : Real.sqrt (rot ⬝ᵥ rot) ≤ Real.pi) :
    let θ := Real.sqrt (rot ⬝ᵥ rot)
    let k := lnK θ (rot ⬝ᵥ rot)
    let s := lnSh θ
    let AB := so3Coeff ((-0.5 : ℝ) • rot)
    se3Ln a = some (join ((((1 - k * (rot ⬝ᵥ rot)) / (2 * s)) • (1 : M 3) + (-AB.1 / (4 * s)) • skew rot +
      ((AB.2 / 4 - k) / (2 * s)) • (skew rot * skew rot)).mulVec a.t) rot) := by
  intro θ k s AB
  unfold se3Ln
  rw [h, Option.bind_some]
  have hsp : 0 < s := lnSh_pos (Real.sqrt_nonneg _) hb
  have e0 : (if Real.sqrt (rot ⬝ᵥ rot) > 0.00001 then Real.sin (Real.sqrt (rot ⬝ᵥ rot) / 2) / Real.sqrt (rot ⬝ᵥ rot) else 0.5) = s := rfl
  simp only [e0]
  rw [if_neg (by linarith : ¬ 2 * s = 0)]
  congr 2
  have ek : (if Real.sqrt (rot ⬝ᵥ rot) > 0.001 then (so3Exp ((-0.5 : ℝ) • rot)).mulVec a.t - ((a.t ⬝ᵥ rot) * (1 - 2 * s) / (rot ⬝ᵥ rot)) • rot
      else (so3Exp ((-0.5 : ℝ) • rot)).mulVec a.t - ((a.t ⬝ᵥ rot) / 24) • rot) =
      (so3Exp ((-0.5 : ℝ) • rot)).mulVec a.t - (k * (a.t ⬝ᵥ rot)) • rot := by
    have hk : k = if Real.sqrt (rot ⬝ᵥ rot) > 0.001 then (1 - 2 * s) / (rot ⬝ᵥ rot) else 1 / 24 := rfl
    rw [hk]
    split_ifs <;> congr 2 <;> ring
  rw [ek]
  have eo : (a.t ⬝ᵥ rot) • rot = (skew rot * skew rot + (rot ⬝ᵥ rot) • (1 : M 3)).mulVec a.t := by
    rw [dot3, dot3]
    funext i
    fin_cases i <;> simp [skew, mulVec, dotProduct, Fin.sum_univ_three, Matrix.mul_apply, Matrix.add_apply] <;> ring
  have eH : so3Exp ((-0.5 : ℝ) • rot) = 1 + (-AB.1 / 2) • skew rot + (AB.2 / 4) • (skew rot * skew rot) := by
    unfold so3Exp
    rw [rodrigues_eq]
    have : skew ((-0.5 : ℝ) • rot) = (-1 / 2 : ℝ) • skew rot := by
      ext i j; fin_cases i <;> fin_cases j <;> simp [skew] <;> norm_num <;> ring
    rw [this, Matrix.smul_mul, Matrix.mul_smul]
    module
  rw [mul_smul, eo, eH, ← Matrix.smul_mulVec, ← Matrix.sub_mulVec, ← Matrix.smul_mulVec]
  congr 1
  rw [show (-AB.1 / (4 * s)) = (1 / (2 * s)) * (-AB.1 / 2) by field_simp; ring,
    show (AB.2 / 4 - k) / (2 * s) = (1 / (2 * s)) * (AB.2 / 4 - k) by ring,
    show (1 - k * (rot ⬝ᵥ rot)) / (2 * s) = (1 / (2 * s)) * (1 - k * (rot ⬝ᵥ rot)) by ring]
  module

theorem sqrt_dot_smul (c : ℝ) (w : V 3) : Real.sqrt ((c • w) ⬝ᵥ (c • w)) = |c| * Real.sqrt (w ⬝ᵥ w) := by
  rw [smul_dotProduct, dotProduct_smul, smul_eq_mul, smul_eq_mul, ← mul_assoc, Real.sqrt_mul (mul_self_nonneg c), Real.sqrt_mul_self_eq_abs]

/-- in the range where every coefficient of `ln` is exact -/
theorem se3Ln_exact (a : SE 3) (rot : V 3) (h : so3Ln a.R = some rot) (hb : Real.sqrt (rot ⬝ᵥ rot) ≤ Real.pi)
    (hx : 0.002 ≤ Real.sqrt (rot ⬝ᵥ rot)) :
    let θ := Real.sqrt (rot ⬝ᵥ rot)
    se3Ln a = some (join (((1:ℝ) • (1 : M 3) + (-1 / 2 : ℝ) • skew rot +
      ((1 - θ * Real.cos (θ / 2) / (2 * Real.sin (θ / 2))) / (θ * θ)) • (skew rot * skew rot)).mulVec a.t) rot) := by
  intro θ
  have := se3Ln_eq a rot h hb
  simp only at this
  rw [this]
  have hq : rot ⬝ᵥ rot = θ * θ := (Real.mul_self_sqrt (dot_self_nonneg rot)).symm
  have hθ : 0 < θ := lt_of_lt_of_le (by norm_num) hx
  have hθ1 : θ > 0.001 := lt_of_lt_of_le (by norm_num) hx
  have hθ2 : θ > 0.00001 := lt_of_lt_of_le (by norm_num) hx
  have hS : 0 < Real.sin (θ / 2) := Real.sin_pos_of_pos_of_lt_pi (by linarith) (by linarith [Real.pi_pos])
  have es : lnSh θ = Real.sin (θ / 2) / θ := by unfold lnSh; rw [if_pos hθ2]
  have ek : lnK θ (rot ⬝ᵥ rot) = (1 - 2 * (Real.sin (θ / 2) / θ)) / (θ * θ) := by unfold lnK; rw [if_pos hθ1, es, hq]
  have hw : Real.sqrt (((-0.5 : ℝ) • rot) ⬝ᵥ ((-0.5 : ℝ) • rot)) = θ / 2 := by
    rw [sqrt_dot_smul]; norm_num; ring
  have hw2 : ((-0.5 : ℝ) • rot) ⬝ᵥ ((-0.5 : ℝ) • rot) = θ / 2 * (θ / 2) := by
    rw [← hw, Real.mul_self_sqrt (dot_self_nonneg _)]
  have h6 : ¬ θ / 2 * (θ / 2) < 1e-6 := by
    have : (0.002:ℝ) ≤ θ := hx
    norm_num at this ⊢; nlinarith
  have h8 : ¬ θ / 2 * (θ / 2) < 1e-8 := by intro hc; apply h6; norm_num at *; linarith
  have eAB : so3Coeff ((-0.5 : ℝ) • rot) = (Real.sin (θ / 2) / (θ / 2), (1 - Real.cos (θ / 2)) / (θ / 2 * (θ / 2))) := by
    unfold so3Coeff
    simp only [hw2, if_neg h6, if_neg h8, Real.sqrt_mul_self (by linarith : (0:ℝ) ≤ θ / 2)]
    ext1
    · simp only; norm_num; field_simp
    · simp only; norm_num; field_simp
  change some (join ((((1 - lnK θ (rot ⬝ᵥ rot) * (rot ⬝ᵥ rot)) / (2 * lnSh θ)) • (1 : M 3) +
    (-(so3Coeff ((-0.5 : ℝ) • rot)).1 / (4 * lnSh θ)) • skew rot +
      (((so3Coeff ((-0.5 : ℝ) • rot)).2 / 4 - lnK θ (rot ⬝ᵥ rot)) / (2 * lnSh θ)) • (skew rot * skew rot)).mulVec a.t) rot) = _
  rw [ek, es, eAB, hq]
  generalize Real.sin (θ / 2) = S at *
  generalize Real.cos (θ / 2) = K at *
  have i1 : (1 - (1 - 2 * (S / θ)) / (θ * θ) * (θ * θ)) / (2 * (S / θ)) = 1 := by field_simp; ring
  have i2 : -(S / (θ / 2)) / (4 * (S / θ)) = -1 / 2 := by field_simp; norm_num
  have i3 : ((1 - K) / (θ / 2 * (θ / 2)) / 4 - (1 - 2 * (S / θ)) / (θ * θ)) / (2 * (S / θ)) = (1 - θ * K / (2 * S)) / (θ * θ) := by
    field_simp; ring
  simp only [i1, i2, i3]

/-- no rotation -/
theorem se3Ln_zero (a : SE 3) (h : so3Ln a.R = some 0) : se3Ln a = some (join a.t 0) := by
  have := se3Ln_eq a 0 h (by simp [Real.pi_pos.le])
  simp only at this
  rw [this, skew_zero]
  have e : lnSh (Real.sqrt ((0 : V 3) ⬝ᵥ 0)) = 0.5 := by unfold lnSh; rw [if_neg]; simp; norm_num
  rw [e]
  simp
  norm_num

/-- **C39** `ln(exp(v)) = v` for a pure translation and for rotations by an angle in `[0.002, π)` -/
theorem c39_ln_exp (v : V 6)
    (h : hi v = 0 ∨ (0.002 ≤ Real.sqrt (hi v ⬝ᵥ hi v) ∧ Real.sqrt (hi v ⬝ᵥ hi v) < Real.pi)) : se3Ln (se3Exp v) = some v := by
  rcases h with h | ⟨h1, h2⟩
  · rw [← join_lo_hi v, h, (c39_exp_pure (lo v) 0).1]
    have h1 : so3Ln (1 : M 3) = some 0 := by
      obtain ⟨w, e1, e2, -⟩ := c35_exp_ln (1 : M 3) ⟨by simp, by simp⟩
      have := c35_ln_exp_exact 0 (by simp [Real.pi_pos])
      rwa [gen_sum, skew_zero, NormedSpace.exp_zero] at this
    exact se3Ln_zero _ h1
  · have hq : 1e-6 ≤ hi v ⬝ᵥ hi v := by
      rw [← Real.mul_self_sqrt (dot_self_nonneg (hi v))]
      norm_num at h1 ⊢; nlinarith
    have hθ : 0 < Real.sqrt (hi v ⬝ᵥ hi v) := lt_of_lt_of_le (by norm_num) h1
    have hl : so3Ln (se3Exp v).R = some (hi v) := by rw [c39_exp_rotation, c35_ln_exp _ hq h2]
    have := se3Ln_exact (se3Exp v) (hi v) hl h2.le h1
    simp only at this
    rw [this]
    have hm := c39_exp_is_matrix_exponential v (Or.inl hq)
    have hW := skew_cube_dot (hi v)
    rw [← Real.mul_self_sqrt (dot_self_nonneg (hi v))] at hW
    rw [se3_gen_sum, exp_blk_rigid (skew (hi v)) (Real.sqrt (hi v ⬝ᵥ hi v)) hθ.ne' hW, SE.mat, hom_inj] at hm
    rw [hm.2, mulVec_mulVec]
    have hv := V_inverse (skew (hi v)) _ hθ.ne'
      (Real.sin_pos_of_pos_of_lt_pi (by linarith) (by linarith [Real.pi_pos])).ne' hW
    rw [mul_eq_one_comm.1 hv, one_mulVec, join_lo_hi]

/-- bounds used below for angles under 0.002 -/
theorem small_bounds {x : ℝ} (h0 : 0 < x) (h1 : x ≤ 0.001) :
    |x - x ^ 3 / 6 - Real.sin x| ≤ x ^ 5 / 100 ∧ |x - Real.sin x| ≤ x ^ 3 / 5 ∧ |1 - Real.cos x| ≤ x ^ 2 ∧
    9 / 10 * x ≤ Real.sin x ∧ Real.sin x ≤ x := by
  obtain ⟨tc, ts⟩ := taylor6 (x := x) (by rw [abs_of_pos h0]; norm_num at h1; linarith)
  rw [abs_le] at tc ts
  have h1' : x ≤ 1 / 1000 := by norm_num at h1; linarith
  have h2 : x ^ 2 ≤ 1 / 1000000 := by nlinarith
  have p2 : 0 < x ^ 2 := by positivity
  have p3 : x ^ 3 = x * x ^ 2 := by ring
  have p4 : x ^ 4 = x ^ 2 * x ^ 2 := by ring
  have p5 : x ^ 5 = x * (x ^ 2 * x ^ 2) := by ring
  have p6 : x ^ 6 ≤ x ^ 5 / 1000 := by
    have : 0 ≤ x ^ 5 := by positivity
    have : x ^ 6 = x ^ 5 * x := by ring
    nlinarith
  have b5 : x ^ 5 ≤ x ^ 3 / 1000000 := by
    have q3 : 0 ≤ x ^ 3 := by positivity
    have : x ^ 5 = x ^ 3 * x ^ 2 := by ring
    nlinarith
  have b3 : x ^ 3 ≤ x / 1000000 := by nlinarith
  have b4 : x ^ 4 ≤ x ^ 2 / 1000000 := by nlinarith
  have b6 : x ^ 6 ≤ x ^ 4 := by
    have : x ^ 6 = x ^ 4 * x ^ 2 := by ring
    have q4 : 0 ≤ x ^ 4 := by positivity
    nlinarith
  have q3 : 0 ≤ x ^ 3 := by positivity
  have q4 : 0 ≤ x ^ 4 := by positivity
  have q5 : 0 ≤ x ^ 5 := by positivity
  refine ⟨?_, ?_, ?_, ?_, ?_⟩
  · rw [abs_le]; constructor <;> linarith
  · rw [abs_le]; constructor <;> linarith
  · rw [abs_le]; constructor <;> linarith
  · linarith
  · exact Real.sin_le h0.le

theorem abs_div_le {a b c d : ℝ} (hb : 0 < b) (h : |a| ≤ c) (hd : c ≤ d * b) : |a / b| ≤ d := by
  rw [abs_div, abs_of_pos hb, div_le_iff₀ hb]; exact h.trans hd

theorem ln_coeff_real (x A B s k : ℝ) (hx0 : 0 < x) (hx1 : x ≤ 0.001) (hA : |A * x - Real.sin x| ≤ 1e-17)
    (hB : |B * (x * x) - (1 - Real.cos x)| ≤ 1e-17)
    (hs : s = Real.sin x / (2 * x) ∧ (k = (1 - 2 * s) / (2 * x * (2 * x)) ∨ k = 1 / 24) ∨ s = 1 / 2 ∧ k = 1 / 24 ∧ x ≤ 1 / 200000) :
    |(1 - k * (2 * x * (2 * x))) / (2 * s) - 1| ≤ 1e-11 ∧ |(-A / (4 * s) - (-1 / 2)) * (2 * x)| ≤ 1e-15 ∧
    |(B / 4 - k) / (2 * s) * (2 * x * (2 * x)) - (1 - x * Real.cos x / Real.sin x)| ≤ 7e-11 := by
  obtain ⟨b1, b2, b3, b4, b5⟩ := small_bounds hx0 hx1
  have hS : 0 < Real.sin x := by linarith
  have h1' : x ≤ 1 / 1000 := by norm_num at hx1; linarith
  have h2 : x ^ 2 ≤ 1 / 1000000 := by nlinarith
  have h4 : x ^ 4 ≤ 1 / 1000000000000 := by
    have : x ^ 4 = x ^ 2 * x ^ 2 := by ring
    have p2 : 0 < x ^ 2 := by positivity
    nlinarith
  generalize Real.sin x = S at *
  generalize Real.cos x = K at *
  norm_num at hA hB
  rcases hs with ⟨hs, hk⟩ | ⟨hs, hk, hx5⟩
  · have es2 : 2 * s = S / x := by rw [hs]; field_simp
    have hs9 : 9 / 10 ≤ 2 * s := by rw [es2, le_div_iff₀ hx0]; exact b4
    have hs2 : 0 < 2 * s := by linarith
    have key1 : |(-A / (4 * s) - (-1 / 2)) * (2 * x)| ≤ 1e-15 := by
      have : (-A / (4 * s) - (-1 / 2)) * (2 * x) = -(A * x - S) / (2 * s) := by
        rw [show 4 * s = 2 * (2 * s) by ring, es2]; field_simp
        try ring
      rw [this]
      refine abs_div_le hs2 (le_of_eq_of_le (abs_neg _) hA) ?_
      norm_num; linarith
    rcases hk with hk | hk
    · refine ⟨?_, key1, ?_⟩
      · have : (1 - k * (2 * x * (2 * x))) / (2 * s) - 1 = 0 := by
          have : s ≠ 0 := by linarith
          rw [hk]; field_simp; ring
        rw [this]; norm_num
      · have : (B / 4 - k) / (2 * s) * (2 * x * (2 * x)) - (1 - x * K / S) = (B * (x * x) - (1 - K)) / (2 * s) := by
          rw [hk, es2]; field_simp; ring
        rw [this]
        refine abs_div_le hs2 hB ?_
        norm_num; linarith
    · have k0 : |1 - x ^ 2 / 6 - S / x| ≤ x ^ 4 / 100 := by
        have : 1 - x ^ 2 / 6 - S / x = (x - x ^ 3 / 6 - S) / x := by field_simp
        rw [this]
        refine abs_div_le hx0 b1 (le_of_eq ?_)
        ring
      refine ⟨?_, key1, ?_⟩
      · have : (1 - k * (2 * x * (2 * x))) / (2 * s) - 1 = (1 - x ^ 2 / 6 - S / x) / (2 * s) := by
          rw [hk, es2]; field_simp; ring
        rw [this]
        refine abs_div_le hs2 k0 ?_
        norm_num; linarith
      · have : (B / 4 - k) / (2 * s) * (2 * x * (2 * x)) - (1 - x * K / S) =
            ((B * (x * x) - (1 - K)) + (1 - x ^ 2 / 6 - S / x)) / (2 * s) := by
          rw [hk, es2]; field_simp; ring
        rw [this]
        refine abs_div_le hs2 ((abs_add_le _ _).trans (add_le_add hB k0)) ?_
        norm_num; linarith
  · have hxx : x ^ 2 ≤ 1 / 40000000000 := by nlinarith
    have hx3 : x ^ 3 ≤ 1 / 8000000000000000 := by
      have : x ^ 3 = x ^ 2 * x := by ring
      rw [this]
      have := mul_le_mul hxx hx5 hx0.le (by norm_num)
      norm_num at this ⊢; linarith
    have p2 : 0 < x ^ 2 := by positivity
    refine ⟨?_, ?_, ?_⟩
    · have : (1 - k * (2 * x * (2 * x))) / (2 * s) - 1 = -(x ^ 2 / 6) := by rw [hk, hs]; ring
      rw [this, abs_neg, abs_of_pos (by positivity)]
      norm_num; linarith
    · have : (-A / (4 * s) - (-1 / 2)) * (2 * x) = -(A * x - S) + (x - S) := by
        rw [hs]; ring
      rw [this]
      refine (abs_add_le _ _).trans ?_
      rw [abs_neg]
      norm_num; linarith
    · have : (B / 4 - k) / (2 * s) * (2 * x * (2 * x)) - (1 - x * K / S) =
          (B * (x * x) - (1 - K)) + (1 - K) - x ^ 2 / 6 - ((S - x) + x * (1 - K)) / S := by
        rw [hk, hs]; field_simp; ring
      rw [this]
      have d1 : |((S - x) + x * (1 - K)) / S| ≤ 7 / 5 * x ^ 2 := by
        refine abs_div_le hS (c := 6 / 5 * x ^ 3) ?_ ?_
        · refine (abs_add_le _ _).trans ?_
          rw [abs_sub_comm, abs_mul, abs_of_pos hx0]
          have := mul_le_mul_of_nonneg_left b3 hx0.le
          have e3 : x ^ 3 = x * x ^ 2 := by ring
          rw [e3] at b2 ⊢
          linarith
        · have := mul_le_mul_of_nonneg_left b4 p2.le
          have e3 : x ^ 3 = x ^ 2 * x := by ring
          have : 0 < x ^ 2 * x := by positivity
          rw [e3]; nlinarith
      have t := abs_sub (B * (x * x) - (1 - K) + (1 - K) - x ^ 2 / 6) (((S - x) + x * (1 - K)) / S)
      have t2 := abs_sub (B * (x * x) - (1 - K) + (1 - K)) (x ^ 2 / 6)
      have t3 := abs_add_le (B * (x * x) - (1 - K)) (1 - K)
      rw [abs_of_pos (by positivity : 0 < x ^ 2 / 6)] at t2
      generalize |B * (x * x) - (1 - K) + (1 - K) - x ^ 2 / 6 - ((S - x) + x * (1 - K)) / S| = z at *
      norm_num
      linarith

/-- the three coefficients of `ln` below an angle of 0.002 -/
theorem ln_coeff_error (rot : V 3) (h0 : rot ≠ 0) (hx : Real.sqrt (rot ⬝ᵥ rot) < 0.002) :
    let θ := Real.sqrt (rot ⬝ᵥ rot)
    let k := lnK θ (rot ⬝ᵥ rot)
    let s := lnSh θ
    let AB := so3Coeff ((-0.5 : ℝ) • rot)
    |(1 - k * (rot ⬝ᵥ rot)) / (2 * s) - 1| ≤ 1e-11 ∧ |-AB.1 / (4 * s) - (-1 / 2)| * θ ≤ 1e-15 ∧
    |(AB.2 / 4 - k) / (2 * s) - (1 - θ * Real.cos (θ / 2) / (2 * Real.sin (θ / 2))) / (θ * θ)| * (θ * θ) ≤ 7e-11 := by
  simp only
  have hθ : 0 < Real.sqrt (rot ⬝ᵥ rot) := Real.sqrt_pos.2 (dot_self_pos h0)
  have hq : rot ⬝ᵥ rot = Real.sqrt (rot ⬝ᵥ rot) * Real.sqrt (rot ⬝ᵥ rot) := (Real.mul_self_sqrt (dot_self_nonneg rot)).symm
  have hw0 : (-0.5 : ℝ) • rot ≠ 0 := by
    intro h; rw [smul_eq_zero] at h; rcases h with h | h
    · norm_num at h
    · exact h0 h
  obtain ⟨eA, eB⟩ := coeff_error _ hw0
  obtain ⟨x, hxd⟩ : ∃ x, x = Real.sqrt (rot ⬝ᵥ rot) / 2 := ⟨_, rfl⟩
  have hw : Real.sqrt (((-0.5 : ℝ) • rot) ⬝ᵥ ((-0.5 : ℝ) • rot)) = x := by
    rw [sqrt_dot_smul, hxd]; norm_num; ring
  rw [hw] at eA eB
  have hθx : Real.sqrt (rot ⬝ᵥ rot) = 2 * x := by linarith
  rw [hθx] at hθ hq hx ⊢
  rw [hq]
  generalize (so3Coeff ((-0.5 : ℝ) • rot)).1 = A at *
  generalize (so3Coeff ((-0.5 : ℝ) • rot)).2 = B at *
  clear hθx hxd hw hw0 hq h0
  have hx0 : 0 < x := by linarith
  have hx1 : x ≤ 0.001 := by norm_num at hx ⊢; linarith
  have hS : 0 < Real.sin x := by linarith [(small_bounds hx0 hx1).2.2.2.1]
  have hA : |A * x - Real.sin x| ≤ 1e-17 := by
    have : (A - Real.sin x / x) * x = A * x - Real.sin x := by field_simp
    rwa [this] at eA
  have hB : |B * (x * x) - (1 - Real.cos x)| ≤ 1e-17 := by
    have : (B - (1 - Real.cos x) / (x * x)) * (x * x) = B * (x * x) - (1 - Real.cos x) := by field_simp
    rwa [this] at eB
  have h22 : 2 * x / 2 = x := by ring
  rw [h22]
  have x3 : ∀ N : ℝ, |N - (1 - 2 * x * Real.cos x / (2 * Real.sin x)) / (2 * x * (2 * x))| * (2 * x * (2 * x)) =
      |N * (2 * x * (2 * x)) - (1 - x * Real.cos x / Real.sin x)| := by
    intro N
    rw [← abs_of_pos (mul_pos hθ hθ), ← abs_mul, abs_of_pos (mul_pos hθ hθ)]
    congr 1
    field_simp
  have x2 : ∀ N : ℝ, |N| * (2 * x) = |N * (2 * x)| := by intro N; rw [abs_mul, abs_of_pos hθ]
  rw [x3, x2]
  apply ln_coeff_real x A B _ _ hx0 hx1 hA hB
  by_cases c5 : 2 * x > 0.00001
  · left
    refine ⟨by unfold lnSh; rw [if_pos c5, h22], ?_⟩
    by_cases c3 : 2 * x > 0.001
    · left; unfold lnK; rw [if_pos c3]
    · right; unfold lnK; rw [if_neg c3]
  · right
    have c3 : ¬ 2 * x > 0.001 := by intro h; apply c5; norm_num at *; linarith
    refine ⟨by unfold lnSh; rw [if_neg c5]; norm_num, by unfold lnK; rw [if_neg c3], by norm_num at c5; linarith⟩

theorem small_BC {θ : ℝ} (h0 : 0 < θ) (h1 : θ < 0.002) :
    |θ * ((1 - Real.cos θ) / (θ * θ))| ≤ 1 / 100 ∧ |θ * θ * ((1 - Real.sin θ / θ) / (θ * θ))| ≤ 1 / 100 := by
  have hx0 : 0 < θ / 2 := by linarith
  have hx1 : θ / 2 ≤ 0.001 := by norm_num at h1 ⊢; linarith
  obtain ⟨b1, b2, b3, b4, b5⟩ := small_bounds hx0 hx1
  have e1 : θ * ((1 - Real.cos θ) / (θ * θ)) = (2 * (Real.sin (θ / 2) * Real.sin (θ / 2))) / θ := by
    rw [(half_angle θ).2]; field_simp; ring
  have e2 : θ * θ * ((1 - Real.sin θ / θ) / (θ * θ)) = (θ - Real.sin θ) / θ := by field_simp
  have h1' : θ < 2 / 1000 := by norm_num at h1; linarith
  constructor
  · rw [e1, abs_of_nonneg (div_nonneg (by nlinarith) h0.le), div_le_iff₀ h0]
    have : Real.sin (θ / 2) * Real.sin (θ / 2) ≤ θ / 2 * (θ / 2) := mul_le_mul b5 b5 (by linarith) hx0.le
    nlinarith
  · rw [e2]
    have hK : Real.cos (θ / 2) ≤ 1 := Real.cos_le_one _
    have hs : Real.sin θ = 2 * Real.sin (θ / 2) * Real.cos (θ / 2) := (half_angle θ).1
    rw [abs_le] at b2 b3
    have p2 : (θ / 2) ^ 2 ≤ 1 / 1000000 := by nlinarith
    have hx3 : (θ / 2) ^ 3 ≤ θ / 2 / 1000000 := by
      have : (θ / 2) ^ 3 = θ / 2 * (θ / 2) ^ 2 := by ring
      nlinarith
    have hS0 : 0 ≤ Real.sin (θ / 2) := by linarith
    refine abs_div_le h0 (c := θ / 100) ?_ (le_of_eq (by ring))
    rw [hs, abs_le]
    constructor <;> nlinarith

theorem series_prod {θ e0 e1 e2 B C : ℝ} (hθ : 0 < θ) (c0 : |e0| ≤ 1e-11) (c1 : |e1| * θ ≤ 1e-15) (c2 : |e2| * (θ * θ) ≤ 7e-11)
    (hB : |B| * θ ≤ 1 / 100) (hC : |C| * (θ * θ) ≤ 1 / 100) :
    |1 * e0| + |1 * e1 + B * e0 - θ * θ * (B * e2 + C * e1)| * θ + |1 * e2 + B * e1 + C * e0 - θ * θ * (C * e2)| * (θ * θ) ≤ 1e-10 := by
  simp only [one_mul]
  have t1 : |e1 + B * e0 - θ * θ * (B * e2 + C * e1)| ≤ |e1| + |B| * |e0| + θ * θ * (|B| * |e2| + |C| * |e1|) := by
    refine (abs_sub _ _).trans ?_
    rw [abs_mul (θ * θ), abs_of_pos (mul_pos hθ hθ)]
    have a1 := abs_add_le e1 (B * e0)
    have a2 := abs_add_le (B * e2) (C * e1)
    rw [abs_mul] at a1
    rw [abs_mul, abs_mul] at a2
    have := mul_le_mul_of_nonneg_left a2 (mul_pos hθ hθ).le
    linarith
  have t2 : |e2 + B * e1 + C * e0 - θ * θ * (C * e2)| ≤ |e2| + |B| * |e1| + |C| * |e0| + θ * θ * (|C| * |e2|) := by
    refine (abs_sub _ _).trans ?_
    rw [abs_mul (θ * θ), abs_of_pos (mul_pos hθ hθ), abs_mul C]
    have a1 := abs_add_le (e2 + B * e1) (C * e0)
    have a2 := abs_add_le e2 (B * e1)
    rw [abs_mul C] at a1
    rw [abs_mul B] at a2
    linarith
  have k1 := mul_le_mul_of_nonneg_right t1 hθ.le
  have k2 := mul_le_mul_of_nonneg_right t2 (mul_pos hθ hθ).le
  have n0 := abs_nonneg e0
  have n1 := mul_nonneg (abs_nonneg e1) hθ.le
  have n2 := mul_nonneg (abs_nonneg e2) (mul_pos hθ hθ).le
  have nB := mul_nonneg (abs_nonneg B) hθ.le
  have nC := mul_nonneg (abs_nonneg C) (mul_pos hθ hθ).le
  have m1 := mul_le_mul hB c0 n0 (by norm_num)
  have m2 := mul_le_mul hB c2 n2 (by norm_num)
  have m3 := mul_le_mul hC c1 n1 (by norm_num)
  have m4 := mul_le_mul hB c1 n1 (by norm_num)
  have m5 := mul_le_mul hC c0 n0 (by norm_num)
  have m6 := mul_le_mul hC c2 n2 (by norm_num)
  norm_num at c0 c1 c2 m1 m2 m3 m4 m5 m6 ⊢
  nlinarith

/-- **C39** for every rigid transformation `ln` succeeds with an angle of at most π, the exponential of the result has exactly the
rotation of the transformation, and its translation up to a relative error of `10⁻¹⁰`; it is exactly the transformation, for
the code's `exp` too, when there is no rotation or its angle is at least 0.002 -/
theorem c39_exp_ln (a : SE 3) (h : IsRot a.R) :
    ∃ v, se3Ln a = some v ∧ Real.sqrt (hi v ⬝ᵥ hi v) ≤ Real.pi ∧
      (∃ t, NormedSpace.exp (∑ i, v i • se3Gen i) = (⟨a.R, t⟩ : SE 3).mat ∧ ∀ i, |t i - a.t i| ≤ 1e-10 * Real.sqrt (a.t ⬝ᵥ a.t)) ∧
      (hi v = 0 ∨ 0.002 ≤ Real.sqrt (hi v ⬝ᵥ hi v) → NormedSpace.exp (∑ i, v i • se3Gen i) = a.mat ∧ se3Exp v = a) := by
  obtain ⟨rot, e1, e2, e3⟩ := c35_exp_ln a.R h
  rw [gen_sum] at e2
  by_cases h0 : rot = 0
  · subst h0
    have hR : a.R = 1 := by rw [← e2, skew_zero, NormedSpace.exp_zero]
    have hE : NormedSpace.exp (∑ i, (join a.t 0) i • se3Gen i) = a.mat := by
      rw [se3_gen_sum, hi_join, lo_join, skew_zero, exp_blk_trans, SE.mat, hR]
    refine ⟨_, se3Ln_zero a e1, ?_, ⟨a.t, hE, ?_⟩, fun _ => ⟨hE, ?_⟩⟩
    · rw [hi_join]; exact e3
    · intro i; rw [sub_self, abs_zero]; exact mul_nonneg (by norm_num) (Real.sqrt_nonneg _)
    · rw [← SE.mat_inj, c39_exp_is_matrix_exponential _ (Or.inr (hi_join _ _)), hE]
  have hθ : 0 < Real.sqrt (rot ⬝ᵥ rot) := Real.sqrt_pos.2 (dot_self_pos h0)
  have hS : 0 < Real.sin (Real.sqrt (rot ⬝ᵥ rot) / 2) := Real.sin_pos_of_pos_of_lt_pi (by linarith) (by linarith [Real.pi_pos])
  have hW := skew_cube_dot rot
  rw [← Real.mul_self_sqrt (dot_self_nonneg rot)] at hW
  have hV := V_inverse (skew rot) _ hθ.ne' hS.ne' hW
  have hR : a.R = _ := e2.symm.trans (exp_skew rot _ (sqrt_dot rot) hθ.ne')
  have hE0 := fun u : V 3 => exp_blk_rigid (skew rot) _ hθ.ne' hW u
  have hE : ∀ u : V 3, NormedSpace.exp (∑ i, (join u rot) i • se3Gen i) = NormedSpace.exp (blk (skew rot) u) := by
    intro u
    rw [se3_gen_sum, hi_join, lo_join]
  by_cases hx : 0.002 ≤ Real.sqrt (rot ⬝ᵥ rot)
  · have hl := se3Ln_exact a rot e1 e3 hx
    simp only at hl
    have hEa : NormedSpace.exp (∑ i, (join (((1:ℝ) • (1 : M 3) + (-1 / 2 : ℝ) • skew rot +
        ((1 - Real.sqrt (rot ⬝ᵥ rot) * Real.cos (Real.sqrt (rot ⬝ᵥ rot) / 2) / (2 * Real.sin (Real.sqrt (rot ⬝ᵥ rot) / 2))) /
          (Real.sqrt (rot ⬝ᵥ rot) * Real.sqrt (rot ⬝ᵥ rot))) • (skew rot * skew rot)).mulVec a.t) rot) i • se3Gen i) = a.mat := by
      rw [hE, hE0, mulVec_mulVec, hV, one_mulVec, ← hR]
    refine ⟨_, hl, by rw [hi_join]; exact e3, ⟨a.t, hEa, ?_⟩, fun _ => ⟨hEa, ?_⟩⟩
    · intro i; rw [sub_self, abs_zero]; exact mul_nonneg (by norm_num) (Real.sqrt_nonneg _)
    · rw [← SE.mat_inj, c39_exp_is_matrix_exponential, hEa]
      left
      rw [hi_join, ← Real.mul_self_sqrt (dot_self_nonneg rot)]
      norm_num at hx ⊢; nlinarith
  · have hl := se3Ln_eq a rot e1 e3
    simp only at hl
    have hEx : ∀ u : V 3, ∃ t, NormedSpace.exp (∑ i, (join u rot) i • se3Gen i) = (⟨a.R, t⟩ : SE 3).mat ∧
        t = (1 + ((1 - Real.cos (Real.sqrt (rot ⬝ᵥ rot))) / (Real.sqrt (rot ⬝ᵥ rot) * Real.sqrt (rot ⬝ᵥ rot))) • skew rot +
          ((1 - Real.sin (Real.sqrt (rot ⬝ᵥ rot)) / Real.sqrt (rot ⬝ᵥ rot)) / (Real.sqrt (rot ⬝ᵥ rot) * Real.sqrt (rot ⬝ᵥ rot))) •
            (skew rot * skew rot)).mulVec u := by
      intro u
      refine ⟨_, ?_, rfl⟩
      rw [hE, hE0, SE.mat, hom_inj]
      exact ⟨hR.symm, rfl⟩
    obtain ⟨t, ht1, ht2⟩ := hEx ((((1 - lnK (Real.sqrt (rot ⬝ᵥ rot)) (rot ⬝ᵥ rot) * (rot ⬝ᵥ rot)) / (2 * lnSh (Real.sqrt (rot ⬝ᵥ rot)))) •
      (1 : M 3) + (-(so3Coeff ((-0.5 : ℝ) • rot)).1 / (4 * lnSh (Real.sqrt (rot ⬝ᵥ rot)))) • skew rot +
      (((so3Coeff ((-0.5 : ℝ) • rot)).2 / 4 - lnK (Real.sqrt (rot ⬝ᵥ rot)) (rot ⬝ᵥ rot)) /
        (2 * lnSh (Real.sqrt (rot ⬝ᵥ rot)))) • (skew rot * skew rot)).mulVec a.t)
    refine ⟨_, hl, by rw [hi_join]; exact e3, ⟨t, ht1, ?_⟩, ?_⟩
    · intro i
      obtain ⟨c0, c1, c2⟩ := ln_coeff_error rot h0 (not_le.1 hx)
      rw [ht2, mulVec_mulVec]
      clear ht1 ht2 hEx hl
      generalize (1 - lnK (Real.sqrt (rot ⬝ᵥ rot)) (rot ⬝ᵥ rot) * (rot ⬝ᵥ rot)) / (2 * lnSh (Real.sqrt (rot ⬝ᵥ rot))) = n0 at *
      generalize -(so3Coeff ((-0.5 : ℝ) • rot)).1 / (4 * lnSh (Real.sqrt (rot ⬝ᵥ rot))) = n1 at *
      generalize ((so3Coeff ((-0.5 : ℝ) • rot)).2 / 4 - lnK (Real.sqrt (rot ⬝ᵥ rot)) (rot ⬝ᵥ rot)) /
        (2 * lnSh (Real.sqrt (rot ⬝ᵥ rot))) = n2 at *
      have hB : |(1 - Real.cos (Real.sqrt (rot ⬝ᵥ rot))) / (Real.sqrt (rot ⬝ᵥ rot) * Real.sqrt (rot ⬝ᵥ rot))| *
          Real.sqrt (rot ⬝ᵥ rot) ≤ 1 / 100 := by
        rw [mul_comm, ← abs_of_pos hθ, ← abs_mul, abs_of_pos hθ]
        exact (small_BC hθ (not_le.1 hx)).1
      have hC : |(1 - Real.sin (Real.sqrt (rot ⬝ᵥ rot)) / Real.sqrt (rot ⬝ᵥ rot)) / (Real.sqrt (rot ⬝ᵥ rot) * Real.sqrt (rot ⬝ᵥ rot))| *
          (Real.sqrt (rot ⬝ᵥ rot) * Real.sqrt (rot ⬝ᵥ rot)) ≤ 1 / 100 := by
        rw [mul_comm, ← abs_of_pos (mul_pos hθ hθ), ← abs_mul, abs_of_pos (mul_pos hθ hθ)]
        exact (small_BC hθ (not_le.1 hx)).2
      have hat := congrFun (congrArg (fun m : M 3 => m.mulVec a.t) hV) i
      simp only [one_mulVec] at hat
      rw [← hat, ← Pi.sub_apply, ← sub_mulVec, ← Matrix.mul_sub]
      set θ := Real.sqrt (rot ⬝ᵥ rot) with hθd
      generalize (1 - θ * Real.cos (θ / 2) / (2 * Real.sin (θ / 2))) / (θ * θ) = m2 at *
      generalize (1 - Real.cos θ) / (θ * θ) = B at *
      generalize (1 - Real.sin θ / θ) / (θ * θ) = C at *
      have hd : (n0 • (1 : M 3) + n1 • skew rot + n2 • (skew rot * skew rot) -
          ((1:ℝ) • (1 : M 3) + (-1 / 2 : ℝ) • skew rot + m2 • (skew rot * skew rot))) =
          (n0 - 1) • (1 : M 3) + (n1 - (-1 / 2)) • skew rot + (n2 - m2) • (skew rot * skew rot) := by module
      have hm := poly_mul (skew rot) (θ * θ) hW 1 B C (n0 - 1) (n1 - (-1 / 2)) (n2 - m2)
      rw [one_smul] at hm
      rw [hd, hm]
      refine (poly_bound rot a.t _ _ _ i).trans ?_
      rw [← hθd]
      apply mul_le_mul_of_nonneg_right _ (Real.sqrt_nonneg _)
      exact series_prod hθ c0 c1 c2 hB hC
    · rintro (hz | hz)
      · rw [hi_join] at hz; exact absurd hz h0
      · rw [hi_join] at hz; exact absurd hz hx

/-- **C39** the direction of coordinate vector `v` at the identity is the linear combination of the generators: the derivative of
`s ↦ exp(s v)` at 0, for the code's `exp` -/
theorem c39_exp_derivative (v : V 6) (i j : Fin 4) :
    HasDerivAt (fun s : ℝ => (se3Exp (s • v)).mat i j) ((∑ k, v k • se3Gen k) i j) 0 := by
  have hhi : ∀ s : ℝ, hi (s • v) = s • hi v := by intro s; funext i; fin_cases i <;> rfl
  have hlo : ∀ s : ℝ, lo (s • v) = s • lo v := by intro s; funext i; fin_cases i <;> rfl
  have hsk : ∀ s : ℝ, skew (s • hi v) = s • skew (hi v) := by
    intro s; ext i j; fin_cases i <;> fin_cases j <;> simp [skew]
  have hd : ∀ s : ℝ, (s • hi v) ⬝ᵥ (s • hi v) = s * s * (hi v ⬝ᵥ hi v) := by
    intro s; rw [smul_dotProduct, dotProduct_smul, smul_eq_mul, smul_eq_mul, mul_assoc]
  have hev : ∀ᶠ s : ℝ in nhds 0, (se3Exp (s • v)).mat i j =
      (hom (1 + (s - (hi v ⬝ᵥ hi v) / 6 * (s * s * s)) • skew (hi v) + (s * s / 2) • (skew (hi v) * skew (hi v)))
        (s • lo v + (s * s / 2) • (skew (hi v)).mulVec (lo v))) i j := by
    have hc : ∀ᶠ s : ℝ in nhds 0, s * s * (hi v ⬝ᵥ hi v) < 1e-8 := by
      have : Filter.Tendsto (fun s : ℝ => s * s * (hi v ⬝ᵥ hi v)) (nhds 0) (nhds (0 * 0 * (hi v ⬝ᵥ hi v))) :=
        ((continuous_id.mul continuous_id).mul continuous_const).tendsto 0
      exact this.eventually (gt_mem_nhds (by norm_num))
    filter_upwards [hc] with s hs
    rw [se3Exp_eq, hhi, hlo]
    have hA : (so3Coeff (s • hi v)) = (1 - s * s * (hi v ⬝ᵥ hi v) / 6, 1 / 2) := by
      unfold so3Coeff
      simp only [hd, if_pos hs]
      ext1
      · norm_num; ring
      · norm_num
    simp only [se3Coeff, so3Exp, rodrigues_eq, hA, hd, if_pos hs, hsk, SE.mat]
    have g1 : (1 + (1 - s * s * (hi v ⬝ᵥ hi v) / 6) • s • skew (hi v) + (1 / 2 : ℝ) • (s • skew (hi v) * s • skew (hi v)) : M 3) =
        1 + (s - (hi v ⬝ᵥ hi v) / 6 * (s * s * s)) • skew (hi v) + (s * s / 2) • (skew (hi v) * skew (hi v)) := by
      rw [Matrix.smul_mul, Matrix.mul_smul]
      module
    have g2 : (1 + (1 / 2 : ℝ) • s • skew (hi v) + (0:ℝ) • (s • skew (hi v) * s • skew (hi v)) : M 3).mulVec (s • lo v) =
        s • lo v + (s * s / 2) • (skew (hi v)).mulVec (lo v) := by
      simp only [zero_smul, add_zero, Matrix.add_mulVec, one_mulVec, smul_mulVec, mulVec_smul]
      module
    rw [g1, g2]
  refine HasDerivAt.congr_of_eventuallyEq ?_ hev
  rw [se3_gen_sum]
  have hp : ∀ a b c d : ℝ, HasDerivAt (fun s : ℝ => a + (s - d * (s * s * s)) * b + s * s / 2 * c) b 0 := by
    intro a b c d
    have h1 := hasDerivAt_id (0:ℝ)
    have h2 := h1.mul h1
    have h3 := h2.mul h1
    have := (((h1.sub (h3.const_mul d)).mul_const b).const_add a).add ((h2.div_const 2).mul_const c)
    refine this.congr_deriv ?_
    simp
  refine Fin.lastCases ?_ (fun i => ?_) i <;> refine Fin.lastCases ?_ (fun j => ?_) j <;>
    simp only [aug, Fin.lastCases_last, Fin.lastCases_castSucc]
  · exact hasDerivAt_const _ _
  · exact hasDerivAt_const _ _
  · have := hp 0 (lo v i) ((skew (hi v)).mulVec (lo v) i) 0
    refine this.congr_of_eventuallyEq (Filter.Eventually.of_forall fun s => ?_)
    simp
  · have := hp ((1 : M 3) i j) (skew (hi v) i j) ((skew (hi v) * skew (hi v)) i j) ((hi v ⬝ᵥ hi v) / 6)
    refine this.congr_of_eventuallyEq (Filter.Eventually.of_forall fun s => ?_)
    simp [Matrix.add_apply]

end TooN.Lie
