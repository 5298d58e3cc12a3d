import Verif.Props.SIMExp
/-!
# C40: logarithm of SIM3 and SIM2; the defects of `SIM2::exp` and of the adjoints
-/
set_option linter.unusedSectionVars false
namespace TooN.Lie
open Matrix

theorem solveV_spec {n : Nat} (x0 : Mat ℝ) (W : M n) (b : V n) :
    (W.det ≠ 0 → ∃ y, solveV x0 W b = some y ∧ W.mulVec y = b) ∧ (W.det = 0 → solveV x0 W b = none) := by
  have hA : asM n n (toMat W) = W := by ext i j; simp [toMat]
  have hb : asV n (toVec b) = b := by funext i; simp [toVec]
  constructor
  · intro hd
    obtain ⟨y, h1, h2⟩ := Elim.c17_gaussian_elimination_vector n (toMat W) (toVec b) x0 (by rw [hA]; exact hd)
    rw [hA, hb] at h2
    exact ⟨asV n y, by unfold solveV; rw [h1]; rfl, h2⟩
  · intro hd
    have := (Elim.c17_gaussian_elimination_fails_iff_singular n 1 (toMat W) (fun i _ => toVec b i) x0).2 (by rw [hA]; exact hd)
    unfold solveV Elim.gaussElimV
    rw [this]; rfl

theorem solveV_inj {n : Nat} (x0 : Mat ℝ) (W : M n) (u : V n) (hd : W.det ≠ 0) : solveV x0 W (W.mulVec u) = some u := by
  obtain ⟨y, h1, h2⟩ := (solveV_spec x0 W (W.mulVec u)).1 hd
  rw [h1]
  have : W⁻¹.mulVec (W.mulVec y) = W⁻¹.mulVec (W.mulVec u) := by rw [h2]
  rw [mulVec_mulVec, mulVec_mulVec, nonsing_inv_mul _ (isUnit_iff_ne_zero.2 hd), one_mulVec, one_mulVec] at this
  rw [this]

/-- the matrix of the translation part of `exp` for given rotation vector and log-scale -/
noncomputable def simW (w : V 3) (s : ℝ) : M 3 :=
  (simCoeff s (Real.sqrt (w ⬝ᵥ w))).1 • (1 : M 3) + (simCoeff s (Real.sqrt (w ⬝ᵥ w))).2.1 • skew w +
    (simCoeff s (Real.sqrt (w ⬝ᵥ w))).2.2 • (skew w * skew w)

theorem sim3Ln_eq (x0 : Mat ℝ) (a : SIM 3) (rot : V 3) (h : so3Ln a.R = some rot) (hs : 0 < a.s) :
    sim3Ln x0 a = (solveV x0 (simW rot (Real.log a.s)) a.t).map fun u => Fin.snoc (join u rot) (Real.log a.s) := by
  unfold sim3Ln
  rw [h]
  simp only [Option.bind_some, if_neg (not_le.2 hs)]
  rfl

theorem det_poly_skew (w : V 3) (a b c : ℝ) :
    (a • (1 : M 3) + b • skew w + c • (skew w * skew w)).det = a * ((a - (w ⬝ᵥ w) * c) ^ 2 + (w ⬝ᵥ w) * b ^ 2) := by
  rw [det_fin_three, dot3]
  simp [skew, Matrix.mul_apply, Fin.sum_univ_three, Matrix.add_apply]
  ring

/-- the matrix is nonsingular for every rotation angle in `[0.001, π]` or zero, and log-scale zero or at least the threshold -/
theorem simW_det (w : V 3) (s : ℝ) (hs : s = 0 ∨ 1e-6 ≤ |s|) (hw : w = 0 ∨ 1e-6 ≤ w ⬝ᵥ w) (hpi : Real.sqrt (w ⬝ᵥ w) ≤ Real.pi) :
    (simW w s).det ≠ 0 := by
  have ht0 : Real.sqrt (w ⬝ᵥ w) ≠ 0 → 1e-6 ≤ |Real.sqrt (w ⬝ᵥ w)| := by
    intro h0
    rcases hw with hw | hw
    · rw [hw] at h0; simp at h0
    · rw [abs_of_nonneg (Real.sqrt_nonneg _)]
      apply Real.le_sqrt_of_sq_le
      norm_num at hw ⊢; linarith
  obtain ⟨k0, k1⟩ := simCoeff_exact s (Real.sqrt (w ⬝ᵥ w)) hs ht0
  have hc0 : (simCoeff s (Real.sqrt (w ⬝ᵥ w))).1 ≠ 0 := by
    rw [k0]
    split_ifs with h0
    · norm_num
    · apply div_ne_zero _ h0
      rw [sub_ne_zero]
      exact fun h => h0 (Real.exp_eq_one_iff s |>.1 h)
  unfold simW
  rw [det_poly_skew]
  apply mul_ne_zero hc0
  rcases hw with hw | hw
  · rw [hw, dotProduct_zero, Real.sqrt_zero, zero_mul, sub_zero, zero_mul, add_zero]
    rw [hw, dotProduct_zero, Real.sqrt_zero] at hc0
    exact pow_ne_zero 2 hc0
  · have hp : 0 < w ⬝ᵥ w := lt_of_lt_of_le (by norm_num) hw
    have hθ := Real.sqrt_pos.2 hp
    have hq := Real.mul_self_sqrt hp.le
    obtain ⟨k1, k2⟩ := k1 hθ.ne'
    rw [← k0] at k2
    rw [k1, k2]
    clear k1 k2 k0
    generalize (simCoeff s (Real.sqrt (w ⬝ᵥ w))).1 = c0 at *
    have hsc := Real.sin_sq_add_cos_sq (Real.sqrt (w ⬝ᵥ w))
    have hnz : Real.exp s * Real.cos (Real.sqrt (w ⬝ᵥ w)) - 1 ≠ 0 ∨ Real.exp s * Real.sin (Real.sqrt (w ⬝ᵥ w)) ≠ 0 := by
      by_contra hcon
      rw [not_or, not_not, not_not] at hcon
      have he := Real.exp_pos s
      rcases mul_eq_zero.1 hcon.2 with h | h
      · exact he.ne' h
      · have hle : Real.pi ≤ Real.sqrt (w ⬝ᵥ w) := by
          by_contra hl
          exact (Real.sin_pos_of_pos_of_lt_pi hθ (not_le.1 hl)).ne' h
        have : Real.sqrt (w ⬝ᵥ w) = Real.pi := le_antisymm hpi hle
        rw [this, Real.cos_pi] at hcon
        linarith [hcon.1]
    generalize Real.sqrt (w ⬝ᵥ w) = θ at *
    rw [← hq]
    have hne := hθ.ne'
    have hss : 0 < s * s + θ * θ := by have := mul_self_nonneg s; have := mul_pos hθ hθ; linarith
    have e : (c0 - θ * θ * ((c0 - ((Real.exp s * Real.cos θ - 1) * s + Real.exp s * Real.sin θ * θ) / (s * s + θ * θ)) / (θ * θ))) ^ 2 +
        θ * θ * ((Real.exp s * Real.sin θ * s + (1 - Real.exp s * Real.cos θ) * θ) / (s * s + θ * θ) / θ) ^ 2 =
        ((Real.exp s * Real.cos θ - 1) ^ 2 + (Real.exp s * Real.sin θ) ^ 2) / (s * s + θ * θ) := by
      have h1 : c0 - θ * θ * ((c0 - ((Real.exp s * Real.cos θ - 1) * s + Real.exp s * Real.sin θ * θ) / (s * s + θ * θ)) / (θ * θ)) =
          ((Real.exp s * Real.cos θ - 1) * s + Real.exp s * Real.sin θ * θ) / (s * s + θ * θ) := by
        rw [mul_div_cancel₀ _ (mul_ne_zero hne hne)]; ring
      have h2 : θ * θ * ((Real.exp s * Real.sin θ * s + (1 - Real.exp s * Real.cos θ) * θ) / (s * s + θ * θ) / θ) ^ 2 =
          ((Real.exp s * Real.sin θ * s + (1 - Real.exp s * Real.cos θ) * θ) / (s * s + θ * θ)) ^ 2 := by
        field_simp
      rw [h1, h2, div_pow, div_pow, ← add_div, div_eq_div_iff (pow_ne_zero 2 hss.ne') hss.ne']
      ring
    rw [e]
    apply (div_pos _ hss).ne'
    rcases hnz with h | h
    · have := sq_nonneg (Real.exp s * Real.sin θ); have := pow_pos (abs_pos.2 h) 2; rw [sq_abs] at this; linarith
    · have := sq_nonneg (Real.exp s * Real.cos θ - 1); have := pow_pos (abs_pos.2 h) 2; rw [sq_abs] at this; linarith

/-- **C40** `SIM3`: `ln(exp(v)) = v` for rotation vectors that are zero or of length in `[0.001, π)` and log-scales that are zero or
at least `10⁻⁶` in magnitude -/
theorem c40_ln_exp (x0 : Mat ℝ) (v : V 7) (hs : v 6 = 0 ∨ 1e-6 ≤ |v 6|)
    (hw : hi (pos v) = 0 ∨ 1e-6 ≤ hi (pos v) ⬝ᵥ hi (pos v)) (hpi : Real.sqrt (hi (pos v) ⬝ᵥ hi (pos v)) < Real.pi) :
    sim3Ln x0 (sim3Exp v) = some v := by
  have hl : so3Ln (so3Exp (hi (pos v))) = some (hi (pos v)) := by
    rcases hw with hw | hw
    · rw [hw]
      have := c35_ln_exp_exact 0 (by simp [Real.pi_pos])
      rw [gen_sum, skew_zero, NormedSpace.exp_zero] at this
      have hR : so3Exp 0 = 1 := by unfold so3Exp; rw [rodrigues_eq, skew_zero]; simp
      rw [hR, this]
    · exact c35_ln_exp _ hw hpi
  have := sim3Ln_eq x0 (sim3Exp v) (hi (pos v)) hl (Real.exp_pos _)
  rw [this]
  have e1 : (sim3Exp v).t = (simW (hi (pos v)) (v 6)).mulVec (lo (pos v)) := by rw [sim3Exp_eq]; rfl
  have e2 : Real.log (sim3Exp v).s = v 6 := Real.log_exp _
  rw [e1, e2, solveV_inj x0 _ _ (simW_det _ _ hs hw hpi.le)]
  simp only [Option.map_some, join_lo_hi]
  congr 1
  funext i
  refine Fin.lastCases ?_ (fun i => ?_) i
  · rw [Fin.snoc_last]; rfl
  · rw [Fin.snoc_castSucc]; rfl

/-- **C40** `SIM3`: for a rotation, a positive scale and any translation `ln` succeeds and `exp` gives the transformation back, when
the angle is zero or at least `0.001` and the log-scale is zero or at least `10⁻⁶` in magnitude -/
theorem c40_exp_ln (x0 : Mat ℝ) (a : SIM 3) (h : IsRot a.R) (hs : 0 < a.s) (hs1 : a.s = 1 ∨ 1e-6 ≤ |Real.log a.s|) :
    ∃ w, so3Ln a.R = some w ∧ (w = 0 ∨ 1e-6 ≤ w ⬝ᵥ w → ∃ v, sim3Ln x0 a = some v ∧ sim3Exp v = a ∧
      NormedSpace.exp (∑ i, v i • sim3Gen i) = a.mat) := by
  obtain ⟨w, h1, h2, h3⟩ := c35_exp_ln a.R h
  refine ⟨w, h1, fun hw => ?_⟩
  have hs2 : Real.log a.s = 0 ∨ 1e-6 ≤ |Real.log a.s| := by
    rcases hs1 with h | h
    · left; rw [h, Real.log_one]
    · exact Or.inr h
  obtain ⟨y, e1, e2⟩ := (solveV_spec x0 (simW w (Real.log a.s)) a.t).1 (simW_det w _ hs2 hw h3)
  have hl := sim3Ln_eq x0 a w h1 hs
  rw [e1, Option.map_some] at hl
  have ep : pos (Fin.snoc (join y w) (Real.log a.s) : V 7) = join y w := by funext i; simp [pos]
  have e6 : (Fin.snoc (join y w) (Real.log a.s) : V 7) 6 = Real.log a.s := rfl
  have hR : so3Exp w = a.R := by
    obtain ⟨w', g1, g2⟩ := c35_code_exp_ln a.R h
    rw [h1] at g1
    cases g1
    exact g2 hw.symm
  have hE : sim3Exp (Fin.snoc (join y w) (Real.log a.s)) = a := by
    rw [sim3Exp_eq, ep, e6, hi_join, lo_join, SIM.ext_iff]
    exact ⟨hR, e2, Real.exp_log hs⟩
  refine ⟨_, hl, hE, ?_⟩
  rw [← c40_exp_is_matrix_exponential _ (by rw [e6]; exact hs2) (by rw [ep, hi_join]; exact hw), hE]

/-- the hypotheses are met: log-scale 1, a rotation by 1 about x -/
example : (![1, 2, 3, 1, 0, 0, 1] : V 7) 6 = 1 ∧ (1e-6 : ℝ) ≤ |1| ∧
    (1e-6 : ℝ) ≤ hi (pos (![1, 2, 3, 1, 0, 0, 1] : V 7)) ⬝ᵥ hi (pos (![1, 2, 3, 1, 0, 0, 1] : V 7)) ∧
    Real.sqrt (hi (pos (![1, 2, 3, 1, 0, 0, 1] : V 7)) ⬝ᵥ hi (pos (![1, 2, 3, 1, 0, 0, 1] : V 7))) < Real.pi := by
  have e : hi (pos (![1, 2, 3, 1, 0, 0, 1] : V 7)) ⬝ᵥ hi (pos (![1, 2, 3, 1, 0, 0, 1] : V 7)) = 1 := by
    have : hi (pos (![1, 2, 3, 1, 0, 0, 1] : V 7)) = ![1, 0, 0] := by funext i; fin_cases i <;> rfl
    rw [this, dot3]; simp
  rw [e, Real.sqrt_one]
  exact ⟨rfl, by norm_num, by norm_num, by linarith [Real.pi_gt_three]⟩

/-! ## SIM2 -/

/-- **C40** (defect) `SIM2::exp` maps every pure translation to the identity, and `ln` of any transformation without rotation and
scaling divides by zero -/
theorem c40_sim2_exp_wrong (x0 : Mat ℝ) (x y : ℝ) (t : V 2) :
    sim2Exp ![x, y, 0, 0] = SIM.id ∧ NormedSpace.exp (∑ i, (![x, y, 0, 0] : V 4) i • sim2Gen i) = (⟨1, ![x, y], 1⟩ : SIM 2).mat ∧
    sim2Ln x0 ⟨1, t, 1⟩ = none := by
  have hc : simCoeff 0 0 = (1, 0, 0) := by
    unfold simCoeff
    simp only
    rw [if_pos (by constructor <;> norm_num)]
    norm_num
  refine ⟨?_, ?_, ?_⟩
  · unfold sim2Exp SIM.id
    simp only [Matrix.cons_val, hc]
    rw [SIM.ext_iff]
    refine ⟨?_, by simp, by simp⟩
    ext i j; fin_cases i <;> fin_cases j <;> simp [so2Exp]
  · rw [sim2_gen_sum]
    simp only [Matrix.cons_val, zero_smul, add_zero]
    rw [exp_blk_trans, SIM.mat, one_smul]
  · unfold sim2Ln
    have hl : so2Ln (1 : M 2) = 0 := by
      have := c33_ln_exp 0 ⟨by linarith [Real.pi_pos], Real.pi_pos.le⟩
      have e : so2Exp 0 = 1 := by ext i j; fin_cases i <;> fin_cases j <;> simp [so2Exp]
      rwa [e] at this
    simp only [hl, Real.log_one, hc, zero_smul, add_zero]
    rw [if_neg (by norm_num), (solveV_spec x0 0 t).2 (by simp)]
    rfl

/-- **C40** `SIM2::exp` (partial): the rotation and the scale are those of the matrix exponential of the generators; the
translation is off by `(c₀ - (θ² + 1) c₂) u`, `u` the translation coordinates and `c` the coefficients of the code -/
theorem c40_sim2_exp_partial (v : V 4) (hs : v 3 = 0 ∨ 1e-6 ≤ |v 3|) (hθ : v 2 = 0 ∨ 1e-6 ≤ |v 2|) :
    NormedSpace.exp (∑ i, v i • sim2Gen i) = hom (Real.exp (v 3) • so2Exp (v 2))
      ((sim2Exp v).t + ((simCoeff (v 3) (v 2)).1 - (v 2 * v 2 + 1) * (simCoeff (v 3) (v 2)).2.2) • ![v 0, v 1]) ∧
    (sim2Exp v).R = so2Exp (v 2) ∧ (sim2Exp v).s = Real.exp (v 3) := by
  refine ⟨?_, rfl, rfl⟩
  obtain ⟨k0, k1⟩ := simCoeff_exact (v 3) (v 2) hs (fun h => hθ.resolve_left h)
  rw [sim2_gen_sum]
  have ht : (sim2Exp v).t + ((simCoeff (v 3) (v 2)).1 - (v 2 * v 2 + 1) * (simCoeff (v 3) (v 2)).2.2) • ![v 0, v 1] =
      ((simCoeff (v 3) (v 2)).1 - v 2 * v 2 * (simCoeff (v 3) (v 2)).2.2) • ![v 0, v 1] +
      (simCoeff (v 3) (v 2)).2.1 • ![-v 2 * v 1, v 2 * v 0] := by
    unfold sim2Exp
    simp only
    module
  rw [ht]
  have hcube : (v 2 • !![0, -1; 1, 0] : M 2) * ((v 2 • !![0, -1; 1, 0]) * (v 2 • !![0, -1; 1, 0])) =
      -(v 2 * v 2) • (v 2 • !![0, -1; 1, 0]) := by
    ext i j; fin_cases i <;> fin_cases j <;> simp [Matrix.mul_apply, Fin.sum_univ_two] <;> ring
  by_cases h2 : v 2 = 0
  · have hR : so2Exp 0 = 1 := by ext i j; fin_cases i <;> fin_cases j <;> simp [so2Exp]
    rw [h2] at k0
    rw [h2, hR, zero_smul, zero_add]
    by_cases h3 : v 3 = 0
    · rw [h3, if_pos rfl] at k0
      rw [h3, zero_smul, exp_blk_trans, hom_inj, k0]
      simp
    · rw [if_neg h3] at k0
      rw [exp_blk_scale _ h3, hom_inj, k0]
      simp
  · obtain ⟨k1, k2⟩ := k1 h2
    rw [← k0] at k2
    have hrot : ∀ A B : ℝ, A * v 2 = Real.sin (v 2) → B * (v 2 * v 2) = 1 - Real.cos (v 2) →
        1 + A • (v 2 • !![0, -1; 1, 0] : M 2) + B • ((v 2 • !![0, -1; 1, 0]) * (v 2 • !![0, -1; 1, 0])) = so2Exp (v 2) := by
      intro A B hA hB
      ext i j
      fin_cases i <;> fin_cases j <;> simp [so2Exp, Matrix.mul_apply, Fin.sum_univ_two] <;> linarith
    have htr : ∀ a b c : ℝ, (a • (1 : M 2) + b • (v 2 • !![0, -1; 1, 0] : M 2) + c • ((v 2 • !![0, -1; 1, 0]) * (v 2 • !![0, -1; 1, 0]))).mulVec
        ![v 0, v 1] = (a - v 2 * v 2 * c) • ![v 0, v 1] + b • ![-v 2 * v 1, v 2 * v 0] := by
      intro a b c
      funext i
      fin_cases i <;> simp [mulVec, dotProduct, Matrix.mul_apply, Fin.sum_univ_two] <;> ring
    have hA : Real.sin (v 2) / v 2 * v 2 = Real.sin (v 2) := by field_simp
    have hB : (1 - Real.cos (v 2)) / (v 2 * v 2) * (v 2 * v 2) = 1 - Real.cos (v 2) := by field_simp
    by_cases h3 : v 3 = 0
    · rw [if_pos h3] at k0
      rw [h3] at k0 k1 k2 ⊢
      rw [zero_smul, add_zero, exp_blk_rigid _ _ h2 hcube, hom_inj]
      refine ⟨by rw [hrot _ _ hA hB, Real.exp_zero, one_smul], ?_⟩
      rw [← htr, k2, k1, k0, Real.exp_zero]
      have g1 : (1 * Real.sin (v 2) * 0 + (1 - 1 * Real.cos (v 2)) * v 2) / (0 * 0 + v 2 * v 2) / v 2 = (1 - Real.cos (v 2)) / (v 2 * v 2) := by
        field_simp; ring
      have g2 : (1 - ((1 * Real.cos (v 2) - 1) * 0 + 1 * Real.sin (v 2) * v 2) / (0 * 0 + v 2 * v 2)) / (v 2 * v 2) = (1 - Real.sin (v 2) / v 2) / (v 2 * v 2) := by
        field_simp; ring
      rw [g1, g2, one_smul]
    · rw [if_neg h3] at k0
      rw [exp_blk_sim _ _ _ h2 h3 hcube, hom_inj]
      refine ⟨by rw [hrot _ _ hA hB], ?_⟩
      rw [← htr, k2, k1, k0]

/-- **C40** `SIM2::ln` inverts `SIM2::exp` (as coded) whenever the 2×2 system it solves is nonsingular -/
theorem c40_sim2_ln_exp (x0 : Mat ℝ) (v : V 4) (hr : v 2 ∈ Set.Ioc (-Real.pi) Real.pi)
    (hn : (simCoeff (v 3) (v 2)).2.2 ^ 2 + v 2 ^ 2 * (simCoeff (v 3) (v 2)).2.1 ^ 2 ≠ 0) : sim2Ln x0 (sim2Exp v) = some v := by
  have hl : so2Ln (sim2Exp v).R = v 2 := c33_ln_exp _ hr
  have hs : Real.log (sim2Exp v).s = v 3 := Real.log_exp _
  have hp : ¬ (sim2Exp v).s ≤ 0 := not_le.2 (Real.exp_pos _)
  unfold sim2Ln
  simp only [hl, hs, if_neg hp]
  have hW : ∀ a b : ℝ, (a • (1 : M 2) + b • put (put 0 0 1 (-v 2)) 1 0 (v 2)) = !![a, -(b * v 2); b * v 2, a] := by
    intro a b; ext i j; fin_cases i <;> fin_cases j <;> simp [put]
  have ht : (sim2Exp v).t = (!![(simCoeff (v 3) (v 2)).2.2, -((simCoeff (v 3) (v 2)).2.1 * v 2); (simCoeff (v 3) (v 2)).2.1 * v 2,
      (simCoeff (v 3) (v 2)).2.2] : M 2).mulVec ![v 0, v 1] := by
    funext i
    fin_cases i <;> simp [sim2Exp, mulVec, dotProduct, Fin.sum_univ_two] <;> ring
  rw [hW, ht, solveV_inj]
  · simp only [Option.map_some]
    congr 1
    funext i; fin_cases i <;> rfl
  · rw [det_fin_two]
    simp only [of_apply, cons_val', cons_val_zero, cons_val_one, cons_val_fin_one]
    intro h; apply hn; linear_combination h

/-! ## adjoints -/

/-- **C40** (defect) the last coordinate of `SIM3::adjoint`, `trinvadjoint` and `SIM2::adjoint` is never written: it is whatever
the uninitialised result contained, for every transformation and argument -/
theorem c40_adjoint_unset (i3 : V 7) (i2 : V 4) (a : SIM 3) (b : SIM 2) (v : V 7) (u : V 4) :
    sim3Adjoint i3 a v 6 = i3 6 ∧ sim3TrInvAdjoint i3 a v 6 = i3 6 ∧ sim2Adjoint i2 b u 3 = i2 3 := ⟨rfl, rfl, rfl⟩

/-- **C40** (defect) even with the right last coordinate, `adjoint` ignores the scale: for the scaling by 2 and a pure translation
`u` the conjugate is the translation by `2u` but `adjoint` gives `u` -/
theorem c40_adjoint_scale_wrong (u : V 3) (hu : u ≠ 0) (i : V 7) (hi6 : i 6 = 0) :
    (⟨1, 0, 2⟩ : SIM 3).mat * (∑ k, (Fin.snoc (join u 0) 0 : V 7) k • sim3Gen k) * ((⟨1, 0, 2⟩ : SIM 3).mat)⁻¹ ≠
      ∑ k, (sim3Adjoint i ⟨1, 0, 2⟩ (Fin.snoc (join u 0) 0)) k • sim3Gen k := by
  have ep : ∀ (x : V 6) (c : ℝ), pos (Fin.snoc x c : V 7) = x := by intro x c; funext i; simp [pos]
  have e6 : ∀ (x : V 6) (c : ℝ), (Fin.snoc x c : V 7) 6 = c := fun _ _ => rfl
  have hinv : ((⟨1, 0, 2⟩ : SIM 3).mat)⁻¹ = hom ((1 / 2 : ℝ) • (1 : M 3)) 0 := by
    apply inv_eq_left_inv
    simp only [SIM.mat]
    rw [hom_mul]
    have : hom ((1 / 2 : ℝ) • (1 : M 3) * (2 : ℝ) • (1 : M 3)) (0 + ((1 / 2 : ℝ) • (1 : M 3)).mulVec 0) = hom (1 : M 3) 0 := by
      rw [hom_inj]; simp [smul_smul]
    rw [this, hom_one]
  rw [hinv, sim3_gen_sum, sim3_gen_sum]
  simp only [sim3Adjoint, ep, e6, hi_join, lo_join, hi6, zero_smul, add_zero, SIM.mat]
  rw [hom_mul_blk, blk_mul_hom]
  intro h
  have h2 := (aug_inj.1 h).2
  simp only [skew_zero, mulVec_zero, one_mulVec, smul_mulVec, zero_add] at h2
  have h3 : crossV (0 : V 3) 0 = 0 := by funext i; fin_cases i <;> simp [crossV]
  rw [h3, add_zero, two_smul] at h2
  apply hu
  simpa using h2

/-- **C40** `SIM3::adjoint` (partial): for a transformation of scale one and coordinates without scaling, and if the unwritten
coordinate happens to be zero, it is the adjoint -/
theorem c40_adjoint_partial (i : V 7) (a : SIM 3) (h : IsRot a.R) (hs : a.s = 1) (v : V 7) (hv : v 6 = 0) (hi6 : i 6 = 0) :
    a.mat * (∑ k, v k • sim3Gen k) * a.mat⁻¹ = ∑ k, (sim3Adjoint i a v) k • sim3Gen k := by
  have ha : a.mat = (⟨a.R, a.t⟩ : SE 3).mat := by rw [SIM.mat, hs, one_smul]
  have e : ∀ x : V 7, x 6 = 0 → ∑ k, x k • sim3Gen k = ∑ k, (pos x) k • se3Gen k := by
    intro x hx; rw [sim3_gen_sum, se3_gen_sum, hx, zero_smul, add_zero]
  rw [ha, ← (c37_inverse (⟨a.R, a.t⟩ : SE 3) h).2.2, e v hv, e _ (by unfold sim3Adjoint; exact hi6), c38_adjoint_algebra _ h]
  have : pos (sim3Adjoint i a v) = se3Adjoint ⟨a.R, a.t⟩ (pos v) := by
    funext k; simp [pos, sim3Adjoint, se3Adjoint]
  rw [this]

/-- **C40** the direction of coordinate vector `v` at the identity is the linear combination of the generators, for the code's
`SIM3::exp` (the defect of its first branch is of second order) -/
theorem c40_exp_derivative (v : V 7) (i j : Fin 4) :
    HasDerivAt (fun r : ℝ => (sim3Exp (r • v)).mat i j) ((∑ k, v k • sim3Gen k) i j) 0 := by
  obtain ⟨w, hw⟩ : ∃ w, hi (pos v) = w := ⟨_, rfl⟩
  obtain ⟨u, hu⟩ : ∃ u, lo (pos v) = u := ⟨_, rfl⟩
  obtain ⟨s, hs⟩ : ∃ s, v 6 = s := ⟨_, rfl⟩
  have hhi : ∀ r : ℝ, hi (pos (r • v)) = r • w := by intro r; rw [← hw]; funext i; fin_cases i <;> rfl
  have hlo : ∀ r : ℝ, lo (pos (r • v)) = r • u := by intro r; rw [← hu]; funext i; fin_cases i <;> rfl
  have h6 : ∀ r : ℝ, (r • v) 6 = r * s := by intro r; rw [← hs]; rfl
  have hsk : ∀ r : ℝ, skew (r • w) = r • skew w := by
    intro r; ext i j; fin_cases i <;> fin_cases j <;> simp [skew]
  have hd : ∀ r : ℝ, (r • w) ⬝ᵥ (r • w) = r * r * (w ⬝ᵥ w) := by
    intro r; rw [smul_dotProduct, dotProduct_smul, smul_eq_mul, smul_eq_mul, mul_assoc]
  have hsq : ∀ r : ℝ, Real.sqrt (r * r * (w ⬝ᵥ w)) * Real.sqrt (r * r * (w ⬝ᵥ w)) = r * r * (w ⬝ᵥ w) := fun r =>
    Real.mul_self_sqrt (mul_nonneg (mul_self_nonneg r) (dot_self_nonneg w))
  have hev : ∀ᶠ r : ℝ in nhds 0, (sim3Exp (r • v)).mat i j =
      (hom (Real.exp (r * s) • (1 + (r - (w ⬝ᵥ w) / 6 * (r * r * r)) • skew w + (r * r / 2) • (skew w * skew w)))
        ((r * (1 + r * s / 2 + r * s * (r * s) / 6)) • u + (r * r * (r * (s / 3) - r * r * (w ⬝ᵥ w) / 24 + r * r * (s * s) / 8)) • (skew w).mulVec u +
          (r * r * r * (r * (s / 8) - r * r * (w ⬝ᵥ w) / 120 + r * r * (s * s) / 20)) • (skew w * skew w).mulVec u)) i j := by
    have hc : ∀ᶠ r : ℝ in nhds 0, r * r * (w ⬝ᵥ w) < 1e-12 := by
      have : Filter.Tendsto (fun s : ℝ => s * s * (w ⬝ᵥ w)) (nhds 0) (nhds (0 * 0 * (w ⬝ᵥ w))) :=
        ((continuous_id.mul continuous_id).mul continuous_const).tendsto 0
      exact this.eventually (gt_mem_nhds (by norm_num))
    have hc2 : ∀ᶠ r : ℝ in nhds 0, |r * s| < 1e-6 := by
      have : Filter.Tendsto (fun r : ℝ => |r * s|) (nhds 0) (nhds (|0 * s|)) :=
        ((continuous_id.mul continuous_const).abs).tendsto 0
      exact this.eventually (gt_mem_nhds (by norm_num))
    filter_upwards [hc, hc2] with r hr hr2
    rw [sim3Exp_eq, hhi, hlo, h6]
    have hr8 : r * r * (w ⬝ᵥ w) < 1e-8 := hr.trans (by norm_num)
    have hA : (so3Coeff (r • w)) = (1 - r * r * (w ⬝ᵥ w) / 6, 1 / 2) := by
      unfold so3Coeff
      simp only [hd, if_pos hr8]
      ext1
      · norm_num; ring
      · norm_num
    have hθ : |Real.sqrt (r * r * (w ⬝ᵥ w))| < 1e-6 := by
      rw [abs_of_nonneg (Real.sqrt_nonneg _), Real.sqrt_lt' (by norm_num)]
      norm_num at hr ⊢; linarith
    have hC : simCoeff (r * s) (Real.sqrt (r * r * (w ⬝ᵥ w))) = (1 + r * s / 2 + r * s * (r * s) / 6,
        r * (s / 3) - r * r * (w ⬝ᵥ w) / 24 + r * r * (s * s) / 8, r * (s / 8) - r * r * (w ⬝ᵥ w) / 120 + r * r * (s * s) / 20) := by
      unfold simCoeff
      simp only
      rw [if_pos ⟨hr2, hθ⟩, hsq]
      norm_num
      constructor <;> ring
    simp only [so3Exp, rodrigues_eq, hA, hd, hsk, hC, SIM.mat]
    have g1 : (1 + (1 - r * r * (w ⬝ᵥ w) / 6) • r • skew w + (1 / 2 : ℝ) • (r • skew w * r • skew w) : M 3) =
        1 + (r - (w ⬝ᵥ w) / 6 * (r * r * r)) • skew w + (r * r / 2) • (skew w * skew w) := by
      rw [Matrix.smul_mul, Matrix.mul_smul]
      module
    rw [g1]
    have g2 : ∀ a b c : ℝ, (a • (1 : M 3) + b • r • skew w + c • (r • skew w * r • skew w)).mulVec (r • u) =
        (r * a) • u + (r * r * b) • (skew w).mulVec u + (r * r * r * c) • (skew w * skew w).mulVec u := by
      intro a b c
      simp only [Matrix.add_mulVec, one_mulVec, smul_mulVec, mulVec_smul, Matrix.smul_mul, Matrix.mul_smul]
      module
    rw [g2]
  refine HasDerivAt.congr_of_eventuallyEq ?_ hev
  rw [sim3_gen_sum, hw, hu, hs]
  have h1 := hasDerivAt_id (0:ℝ)
  have h2 := h1.mul h1
  have h3 := h2.mul h1
  have hp : ∀ a b c d : ℝ, HasDerivAt (fun r : ℝ => Real.exp (r * s) * (a + (r - d * (r * r * r)) * b + r * r / 2 * c)) (b + s * a) 0 := by
    intro a b c d
    have := (((h1.sub (h3.const_mul d)).mul_const b).const_add a).add ((h2.div_const 2).mul_const c)
    have he := ((h1.mul_const s).exp).mul this
    refine he.congr_deriv ?_
    simp
    ring
  have hq : ∀ a b c k1 k2 k3 k4 k5 k6 : ℝ, HasDerivAt (fun r : ℝ => r * (1 + r * k1 + r * r * k2) * a + r * r * (r * k3 + r * r * k4) * b +
      r * r * r * (r * k5 + r * r * k6) * c) a 0 := by
    intro a b c k1 k2 k3 k4 k5 k6
    have t1 := (h1.mul ((((h1.mul_const k1).const_add 1).add (h2.mul_const k2)))).mul_const a
    have t2 := (h2.mul ((h1.mul_const k3).add (h2.mul_const k4))).mul_const b
    have t3 := (h3.mul ((h1.mul_const k5).add (h2.mul_const k6))).mul_const c
    refine ((t1.add t2).add t3).congr_deriv ?_
    simp
  refine Fin.lastCases ?_ (fun i => ?_) i <;> refine Fin.lastCases ?_ (fun j => ?_) j <;>
    simp only [aug, Fin.lastCases_last, Fin.lastCases_castSucc]
  · exact hasDerivAt_const _ _
  · exact hasDerivAt_const _ _
  · have := hq (u i) ((skew w).mulVec u i) ((skew w * skew w).mulVec u i) (s / 2) (s * s / 6) (s / 3) (-(w ⬝ᵥ w) / 24 + (s * s) / 8)
      (s / 8) (-(w ⬝ᵥ w) / 120 + (s * s) / 20)
    refine this.congr_of_eventuallyEq (Filter.Eventually.of_forall fun r => ?_)
    simp only [Pi.add_apply, Pi.smul_apply, smul_eq_mul]
    ring
  · have := hp ((1 : M 3) i j) (skew w i j) ((skew w * skew w) i j) ((w ⬝ᵥ w) / 6)
    refine this.congr_of_eventuallyEq (Filter.Eventually.of_forall fun r => ?_)
    simp [Matrix.add_apply]

end TooN.Lie
