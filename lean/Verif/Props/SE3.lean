import Verif.Props.SE
/-!
# C38, C39: SE3 adjoint, exponential, generators
-/
set_option linter.unusedSectionVars false
namespace TooN.Lie
open Matrix

theorem blk_four (X : M 3) (t : V 3) :
    blk X t = !![X 0 0, X 0 1, X 0 2, t 0; X 1 0, X 1 1, X 1 2, t 1; X 2 0, X 2 1, X 2 2, t 2; 0, 0, 0, 0] := by
  ext i j; fin_cases i <;> fin_cases j <;> rfl

/-- the linear combination of the generators, as a block matrix -/
theorem se3_gen_sum (v : V 6) : ∑ i, v i • se3Gen i = blk (skew (hi v)) (lo v) := by
  rw [blk_four]
  ext i j
  rw [Fin.sum_univ_six]
  fin_cases i <;> fin_cases j <;> simp [se3Gen, put, ix3, skew, hi, lo, Matrix.add_apply]

theorem lo_join (a b : V 3) : lo (join a b) = a := by funext i; fin_cases i <;> rfl
theorem hi_join (a b : V 3) : hi (join a b) = b := by funext i; fin_cases i <;> rfl
theorem join_lo_hi (v : V 6) : join (lo v) (hi v) = v := by funext i; fin_cases i <;> rfl

/-- **C39** generator 0–2 is translation along the axis, 3–5 is rotation about the axis (as velocity of a homogeneous
point), and `generator_field` is the product with the generator -/
theorem c39_generators (v : V 6) (x : V 3) (w : ℝ) (p : V 4) (i : Fin 6) :
    (∑ i, v i • se3Gen i).mulVec (Fin.snoc x w) = Fin.snoc (crossV (hi v) x + w • lo v) 0 ∧
    se3GenField i p = (se3Gen i).mulVec p := by
  constructor
  · rw [se3_gen_sum]
    funext i
    rw [blk_four]
    have e3 : (Fin.snoc x w : V 4) = ![x 0, x 1, x 2, w] := by funext i; fin_cases i <;> rfl
    have e4 : (Fin.snoc (crossV (hi v) x + w • lo v) 0 : V 4) =
      ![(crossV (hi v) x + w • lo v) 0, (crossV (hi v) x + w • lo v) 1, (crossV (hi v) x + w • lo v) 2, 0] := by
      funext i; fin_cases i <;> rfl
    rw [e3, e4]
    fin_cases i <;> simp [mulVec, dotProduct, Fin.sum_univ_four, skew, crossV] <;> ring
  · funext r
    fin_cases i <;> fin_cases r <;>
      simp [se3Gen, se3GenField, put, ix3, mulVec, dotProduct, Fin.sum_univ_four, Function.update]

theorem crossV_neg_swap (a b : V 3) : crossV a b = -crossV b a := by
  funext i; fin_cases i <;> simp [crossV] <;> ring

/-- **C38** conjugating a linear combination of generators by a transformation gives the linear combination with the
coordinates transformed by `adjoint` … -/
theorem c38_adjoint_algebra (a : SE 3) (h : IsRot a.R) (v : V 6) :
    a.mat * (∑ i, v i • se3Gen i) * a.inv.mat = ∑ i, (se3Adjoint a v) i • se3Gen i := by
  rw [se3_gen_sum, se3_gen_sum, SE.mat, SE.mat, hom_mul_blk, blk_mul_hom, aug_inj]
  unfold se3Adjoint
  simp only [hi_join, lo_join, SE.inv]
  rw [rot_skew h]
  refine ⟨rfl, ?_⟩
  rw [mulVec_neg, mulVec_mulVec, ← rot_skew h, skew_mulVec, ← crossV_neg_swap, add_comm]

/-- … so `A exp(v) A⁻¹ = exp(adjoint(v))` for the matrix exponential … -/
theorem c38_adjoint_exponential (a : SE 3) (h : IsRot a.R) (v : V 6) :
    a.mat * NormedSpace.exp (∑ i, v i • se3Gen i) * a.inv.mat = NormedSpace.exp (∑ i, (se3Adjoint a v) i • se3Gen i) := by
  rw [← c38_adjoint_algebra a h]
  obtain ⟨h1, h2, h3⟩ := c37_inverse a h
  rw [h3]
  have hu : IsUnit a.mat := by
    rw [Matrix.isUnit_iff_isUnit_det]
    apply Matrix.isUnit_det_of_left_inverse (B := a.inv.mat)
    rw [← c37_mul_is_matrix_product, h2, SE.mat, hom_one]
  open scoped Matrix.Norms.Operator in
  exact (Matrix.exp_conj _ _ hu).symm

/-- the three coefficients of `SE3::exp`; `C` is not used in the first branch -/
noncomputable def se3Coeff (w : V 3) : ℝ × ℝ × ℝ :=
  ((so3Coeff w).1, (so3Coeff w).2, if w ⬝ᵥ w < 1e-8 then 0 else (1 - (so3Coeff w).1) / (w ⬝ᵥ w))

theorem se3Exp_eq (mu : V 6) :
    se3Exp mu = ⟨so3Exp (hi mu), (1 + (se3Coeff (hi mu)).2.1 • skew (hi mu) + (se3Coeff (hi mu)).2.2 • (skew (hi mu) * skew (hi mu))).mulVec (lo mu)⟩ := by
  unfold se3Exp so3Exp se3Coeff so3Coeff
  simp only [Matrix.add_mulVec, one_mulVec, smul_mulVec, ← mulVec_mulVec, skew_mulVec]
  by_cases c1 : hi mu ⬝ᵥ hi mu < 1e-8
  · simp only [if_pos c1, zero_smul, add_zero]
  · simp only [if_neg c1]
    have hq : hi mu ⬝ᵥ hi mu ≠ 0 := by intro h0; rw [h0] at c1; norm_num at c1
    by_cases c2 : hi mu ⬝ᵥ hi mu < 1e-6
    · simp only [if_pos c2]
      generalize hi mu ⬝ᵥ hi mu = q at *
      have e1 : (1.0 : ℝ) - q * (1.0 / 6.0 * (1.0 - 1.0 / 20.0 * q)) = 1.0 - q * (1.0 / 6.0) * (1.0 - 1.0 / 20.0 * q) := by rw [mul_assoc]
      have e2 : (1.0 / 6.0 * (1.0 - 1.0 / 20.0 * q) : ℝ) = (1 - (1.0 - q * (1.0 / 6.0) * (1.0 - 1.0 / 20.0 * q))) / q := by
        rw [eq_div_iff hq]; norm_num; ring
      rw [e1, ← e2]
    · simp only [if_neg c2]
      have hs := Real.mul_self_sqrt (dot_self_nonneg (hi mu))
      have hs0 : Real.sqrt (hi mu ⬝ᵥ hi mu) ≠ 0 := by intro h0; rw [h0] at hs; apply hq; linarith
      generalize Real.sqrt (hi mu ⬝ᵥ hi mu) = θ at *
      rw [← hs]
      have e : ∀ A : ℝ, (1 - A) * (1.0 / θ * (1.0 / θ)) = (1 - A) / (θ * θ) := by intro A; norm_num; field_simp
      rw [e, e]

theorem so3Coeff_rot {m : M 3} (h : IsRot m) (w : V 3) : se3Coeff (m.mulVec w) = se3Coeff w := by
  unfold se3Coeff so3Coeff; rw [rot_dot h]

theorem skew_zero : skew 0 = 0 := by ext i j; fin_cases i <;> fin_cases j <;> simp [skew]

theorem skew_cube_dot (w : V 3) : skew w * (skew w * skew w) = -(w ⬝ᵥ w) • skew w := by rw [skew_cube, dot3]

/-- … and for the code's `exp`: exactly when the rotation vector is zero or has squared length at least `10⁻⁸`; below that
only the translation differs, by `(|w|²/6) Rw × t` -/
theorem c38_adjoint_code (a : SE 3) (h : IsRot a.R) (v : V 6) :
    (1e-8 ≤ hi v ⬝ᵥ hi v ∨ hi v = 0 → SE.mul (SE.mul a (se3Exp v)) a.inv = se3Exp (se3Adjoint a v)) ∧
    (hi v ⬝ᵥ hi v < 1e-8 → (SE.mul (SE.mul a (se3Exp v)) a.inv).R = (se3Exp (se3Adjoint a v)).R ∧
      (SE.mul (SE.mul a (se3Exp v)) a.inv).t =
        (se3Exp (se3Adjoint a v)).t + ((hi v ⬝ᵥ hi v) / 6) • crossV (a.R.mulVec (hi v)) a.t) := by
  have hw : hi (se3Adjoint a v) = a.R.mulVec (hi v) := by unfold se3Adjoint; rw [hi_join]
  have hu : lo (se3Adjoint a v) = a.R.mulVec (lo v) + crossV a.t (a.R.mulVec (hi v)) := by unfold se3Adjoint; rw [lo_join]
  have hR : (SE.mul (SE.mul a (se3Exp v)) a.inv).R = (se3Exp (se3Adjoint a v)).R := by
    rw [se3Exp_eq, se3Exp_eq, hw]
    exact c34_adjoint a.R h (hi v)
  have ht : (SE.mul (SE.mul a (se3Exp v)) a.inv).t = (se3Exp (se3Adjoint a v)).t +
      (1 - (hi v ⬝ᵥ hi v) * (se3Coeff (hi v)).2.2 - (se3Coeff (hi v)).1) • crossV (a.R.mulVec (hi v)) a.t := by
    have e1 : (SE.mul (SE.mul a (se3Exp v)) a.inv).t =
        a.t + a.R.mulVec (se3Exp v).t - ((SE.mul (SE.mul a (se3Exp v)) a.inv).R).mulVec a.t := by
      simp only [SE.mul, SE.inv, mulVec_neg, mulVec_mulVec]
      rw [sub_eq_add_neg]
    rw [e1, hR, se3Exp_eq, se3Exp_eq, hw, hu, so3Coeff_rot h]
    have eR : so3Exp (a.R.mulVec (hi v)) = 1 + (se3Coeff (hi v)).1 • skew (a.R.mulVec (hi v)) +
        (se3Coeff (hi v)).2.1 • (skew (a.R.mulVec (hi v)) * skew (a.R.mulVec (hi v))) := by
      unfold so3Exp; rw [rodrigues_eq, ← so3Coeff_rot h]; rfl
    rw [eR]
    have es : a.R * skew (hi v) = skew (a.R.mulVec (hi v)) * a.R := by
      rw [rot_skew h, Matrix.mul_assoc, h.orth', Matrix.mul_one]
    have hq : a.R.mulVec (hi v) ⬝ᵥ a.R.mulVec (hi v) = hi v ⬝ᵥ hi v := rot_dot h _ _
    rw [crossV_neg_swap a.t, ← skew_mulVec, ← hq]
    have c3 := skew_cube_dot (a.R.mulVec (hi v))
    generalize (se3Coeff (hi v)).1 = A
    generalize (se3Coeff (hi v)).2.1 = B
    generalize (se3Coeff (hi v)).2.2 = C
    generalize a.R.mulVec (hi v) = w' at *
    generalize skew w' = W' at *
    generalize skew (hi v) = W at *
    generalize w' ⬝ᵥ w' = q at *
    have es2 : a.R * (W * W) = W' * W' * a.R := by
      rw [← Matrix.mul_assoc, es, Matrix.mul_assoc, es, Matrix.mul_assoc]
    have c3' : W' * W' * W' = -q • W' := by rw [Matrix.mul_assoc]; exact c3
    simp only [Matrix.add_mulVec, mulVec_add, one_mulVec, smul_mulVec, mulVec_smul, mulVec_neg, mulVec_mulVec, es, es2,
      Matrix.add_mul, Matrix.one_mul, Matrix.smul_mul, c3']
    module
  have hz : (se3Coeff (hi v)).1 = (so3Coeff (hi v)).1 := rfl
  constructor
  · rintro (h1 | h1)
    · ext1
      · exact hR
      · rw [ht]
        have hq : hi v ⬝ᵥ hi v ≠ 0 := by intro h0; rw [h0] at h1; norm_num at h1
        have : (1 - (hi v ⬝ᵥ hi v) * (se3Coeff (hi v)).2.2 - (se3Coeff (hi v)).1) = 0 := by
          simp only [se3Coeff, if_neg (not_lt.2 h1)]
          field_simp; ring
        rw [this, zero_smul, add_zero]
    · ext1
      · exact hR
      · rw [ht, h1, mulVec_zero]
        have : crossV 0 a.t = 0 := by funext i; fin_cases i <;> simp [crossV]
        rw [this, smul_zero, add_zero]
  · intro h1
    refine ⟨hR, ?_⟩
    rw [ht]
    congr 2
    simp only [se3Coeff, so3Coeff, if_pos h1]
    norm_num
    ring

/-- **C38** `adjoint` is a homomorphism into linear maps -/
theorem c38_adjoint_hom (a b : SE 3) (h : IsRot a.R) (v u : V 6) (c : ℝ) :
    se3Adjoint (SE.mul a b) v = se3Adjoint a (se3Adjoint b v) ∧ se3Adjoint SE.id v = v ∧
    se3Adjoint a (u + c • v) = se3Adjoint a u + c • se3Adjoint a v := by
  refine ⟨?_, ?_, ?_⟩
  · unfold se3Adjoint
    simp only [hi_join, lo_join, SE.mul, mulVec_add, rot_cross h, mulVec_mulVec]
    congr 1
    rw [add_assoc]
    congr 1
    funext i; fin_cases i <;> simp [crossV] <;> ring
  · unfold se3Adjoint
    simp only [one_mulVec]
    have : ∀ x, crossV 0 x = 0 := by intro x; funext i; fin_cases i <;> simp [crossV]
    rw [this, add_zero, join_lo_hi]
  · unfold se3Adjoint
    have e1 : hi (u + c • v) = hi u + c • hi v := by funext i; fin_cases i <;> rfl
    have e2 : lo (u + c • v) = lo u + c • lo v := by funext i; fin_cases i <;> rfl
    have e3 : ∀ a b x y : V 3, join (a + c • x) (b + c • y) = join a b + c • join x y := by
      intro a b x y; funext i; fin_cases i <;> rfl
    rw [e1, e2, ← e3]
    simp only [mulVec_add, mulVec_smul]
    congr 1
    generalize a.R.mulVec (lo u) = p
    generalize a.R.mulVec (lo v) = p'
    generalize a.R.mulVec (hi u) = p''
    generalize a.R.mulVec (hi v) = p''
    have : ∀ x y z : V 3, crossV x (y + c • z) = crossV x y + c • crossV x z := by
      intro x y z; funext i; fin_cases i <;> simp [crossV] <;> ring
    rw [this]
    module

theorem dot_join (a b c d : V 3) : join a b ⬝ᵥ join c d = a ⬝ᵥ c + b ⬝ᵥ d := by
  rw [dot3, dot3]
  simp [dotProduct, Fin.sum_univ_six, join]
  ring

/-- **C38** `trinvadjoint` is the transpose-inverse of `adjoint`: it preserves the pairing of covectors with vectors -/
theorem c38_trinvadjoint (a : SE 3) (h : IsRot a.R) (u v : V 6) : se3TrInvAdjoint a u ⬝ᵥ se3Adjoint a v = u ⬝ᵥ v := by
  unfold se3TrInvAdjoint se3Adjoint
  simp only [dot_join, dotProduct_add, add_dotProduct, rot_dot h]
  conv_rhs => rw [← join_lo_hi u, ← join_lo_hi v, dot_join]
  have : ∀ p q r : V 3, p ⬝ᵥ crossV r q + crossV r p ⬝ᵥ q = 0 := by
    intro p q r; rw [dot3, dot3]; simp [crossV]; ring
  have := this (a.R.mulVec (lo u)) (a.R.mulVec (hi v)) a.t
  linarith

/-- the matrix of a map on coordinate vectors: column `j` is the image of the `j`-th unit vector -/
def matOf {k : Nat} (f : V k → V k) : M k := fun i j => f (Pi.single j 1) i

theorem colsRows_eq {k : Nat} (f : V k → V k) (hf : ∀ v, (matOf f).mulVec v = f v) (m : M k) :
    onColsThenRows f m = matOf f * m * (matOf f)ᵀ := by
  unfold onColsThenRows
  ext i j
  simp only [← hf]
  rw [Matrix.mul_apply]
  simp only [mulVec, dotProduct, Matrix.mul_apply, transpose_apply]
  exact Finset.sum_congr rfl fun x _ => mul_comm _ _

theorem se3_matOf (a : SE 3) (v : V 6) : (matOf (se3Adjoint a)).mulVec v = se3Adjoint a v ∧
    (matOf (se3TrInvAdjoint a)).mulVec v = se3TrInvAdjoint a v := by
  constructor <;>
  · funext i
    simp only [mulVec, dotProduct, matOf, Fin.sum_univ_six]
    fin_cases i <;>
      simp [se3Adjoint, se3TrInvAdjoint, join, lo, hi, mulVec, dotProduct, Fin.sum_univ_three, crossV, Pi.single_apply] <;> ring

/-- **C38** the matrix forms are `Ad M Adᵀ` and `Ad⁻ᵀ M Ad⁻¹`, where `Ad` is the matrix of `adjoint` -/
theorem c38_matrix_forms (a : SE 3) (h : IsRot a.R) (m : M 6) :
    (∀ v, (matOf (se3Adjoint a)).mulVec v = se3Adjoint a v) ∧
    se3AdjointM a m = matOf (se3Adjoint a) * m * (matOf (se3Adjoint a))ᵀ ∧
    se3TrInvAdjointM a m = ((matOf (se3Adjoint a))⁻¹)ᵀ * m * (matOf (se3Adjoint a))⁻¹ := by
  refine ⟨fun v => (se3_matOf a v).1, colsRows_eq _ (fun v => (se3_matOf a v).1) m, ?_⟩
  have e : (matOf (se3TrInvAdjoint a))ᵀ * matOf (se3Adjoint a) = 1 := by
    ext i j
    have := c38_trinvadjoint a h (Pi.single i 1) (Pi.single j 1)
    rw [Matrix.mul_apply, Matrix.one_apply]
    simp only [transpose_apply]
    refine this.trans ?_
    simp [Pi.single_apply, eq_comm]
  have e2 : (matOf (se3Adjoint a))⁻¹ = (matOf (se3TrInvAdjoint a))ᵀ := inv_eq_left_inv e
  rw [e2, transpose_transpose]
  exact colsRows_eq _ (fun v => (se3_matOf a v).2) m

/-- **C39** outside the Taylor branches (and for a pure translation) `exp` is the exponential of the linear combination of
the generators -/
theorem c39_exp_is_matrix_exponential (mu : V 6) (h : 1e-6 ≤ hi mu ⬝ᵥ hi mu ∨ hi mu = 0) :
    (se3Exp mu).mat = NormedSpace.exp (∑ i, mu i • se3Gen i) := by
  rw [se3_gen_sum, se3Exp_eq]
  rcases h with h | h
  · have hp : 0 < hi mu ⬝ᵥ hi mu := lt_of_lt_of_le (by norm_num) h
    have hs := Real.sqrt_pos.2 hp
    have hq := Real.mul_self_sqrt hp.le
    rw [exp_blk_rigid (skew (hi mu)) (Real.sqrt (hi mu ⬝ᵥ hi mu)) hs.ne' (by rw [skew_cube_dot, hq])]
    rw [SE.mat, hom_inj]
    have c1 : ¬ hi mu ⬝ᵥ hi mu < 1e-6 := not_lt.2 h
    have c0 : ¬ hi mu ⬝ᵥ hi mu < 1e-8 := by intro h0; apply c1; norm_num at *; linarith
    have eA : (so3Coeff (hi mu)).1 = Real.sin (Real.sqrt (hi mu ⬝ᵥ hi mu)) / Real.sqrt (hi mu ⬝ᵥ hi mu) := by
      simp only [so3Coeff, if_neg c0, if_neg c1]; norm_num; field_simp
    have eB : (so3Coeff (hi mu)).2 = (1 - Real.cos (Real.sqrt (hi mu ⬝ᵥ hi mu))) / (Real.sqrt (hi mu ⬝ᵥ hi mu) * Real.sqrt (hi mu ⬝ᵥ hi mu)) := by
      simp only [so3Coeff, if_neg c0, if_neg c1]; norm_num; field_simp
    constructor
    · simp only [so3Exp, rodrigues_eq, eA, eB]
    · simp only [se3Coeff, if_neg c0, eA, eB, hq]
  · rw [h, skew_zero, exp_blk_trans, SE.mat, hom_inj]
    constructor
    · unfold so3Exp; rw [rodrigues_eq, skew_zero]; simp
    · simp

/-- **C39** the exponential of a pure translation is that translation; of a pure rotation, that of `SO3::exp` -/
theorem c39_exp_pure (u w : V 3) : se3Exp (join u 0) = ⟨1, u⟩ ∧ se3Exp (join 0 w) = ⟨so3Exp w, 0⟩ := by
  constructor
  · rw [← SE.mat_inj, c39_exp_is_matrix_exponential _ (Or.inr (hi_join _ _)), se3_gen_sum, hi_join, lo_join, skew_zero, exp_blk_trans]
  · rw [se3Exp_eq, hi_join, lo_join, mulVec_zero]

/-- **C39** the rotation of `exp` is `SO3::exp` of the rotation coordinates, in every branch -/
theorem c39_exp_rotation (mu : V 6) : (se3Exp mu).R = so3Exp (hi mu) := by rw [se3Exp_eq]

theorem abs_le_sqrt_dot (x : V 3) (i : Fin 3) : |x i| ≤ Real.sqrt (x ⬝ᵥ x) := by
  apply abs_le_of_sq_le_sq _ (Real.sqrt_nonneg _)
  rw [Real.sq_sqrt (dot_self_nonneg x), dot3]
  have q0 := mul_self_nonneg (x 0)
  have q1 := mul_self_nonneg (x 1)
  have q2 := mul_self_nonneg (x 2)
  fin_cases i <;> simp <;> nlinarith

theorem sqrt_cross_le (w u : V 3) : Real.sqrt (crossV w u ⬝ᵥ crossV w u) ≤ Real.sqrt (w ⬝ᵥ w) * Real.sqrt (u ⬝ᵥ u) := by
  rw [← Real.sqrt_mul (dot_self_nonneg w)]
  apply Real.sqrt_le_sqrt
  have : crossV w u ⬝ᵥ crossV w u = (w ⬝ᵥ w) * (u ⬝ᵥ u) - (w ⬝ᵥ u) * (w ⬝ᵥ u) := by
    rw [dot3, dot3, dot3, dot3]; simp [crossV]; ring
  rw [this]
  nlinarith [mul_self_nonneg (w ⬝ᵥ u)]

/-- a polynomial in the cross product matrix applied to a vector -/
theorem poly_bound (w u : V 3) (a b c : ℝ) (i : Fin 3) :
    |((a • (1 : M 3) + b • skew w + c • (skew w * skew w)).mulVec u) i| ≤
      (|a| + |b| * Real.sqrt (w ⬝ᵥ w) + |c| * (Real.sqrt (w ⬝ᵥ w) * Real.sqrt (w ⬝ᵥ w))) * Real.sqrt (u ⬝ᵥ u) := by
  simp only [Matrix.add_mulVec, smul_mulVec, one_mulVec, ← mulVec_mulVec, skew_mulVec, Pi.add_apply, Pi.smul_apply, smul_eq_mul]
  have h1 := abs_le_sqrt_dot u i
  have h2 := (abs_le_sqrt_dot (crossV w u) i).trans (sqrt_cross_le w u)
  have h3 := (abs_le_sqrt_dot (crossV w (crossV w u)) i).trans ((sqrt_cross_le w _).trans
    (mul_le_mul_of_nonneg_left (sqrt_cross_le w u) (Real.sqrt_nonneg _)))
  have k1 := mul_le_mul_of_nonneg_left h1 (abs_nonneg a)
  have k2 := mul_le_mul_of_nonneg_left h2 (abs_nonneg b)
  have k3 := mul_le_mul_of_nonneg_left h3 (abs_nonneg c)
  have t1 := abs_add_le (a * u i + b * crossV w u i) (c * crossV w (crossV w u) i)
  have t2 := abs_add_le (a * u i) (b * crossV w u i)
  rw [abs_mul, abs_mul] at t2
  rw [abs_mul] at t1
  nlinarith

/-- errors of the translation coefficients in the Taylor branches -/
theorem se3Coeff_error (w : V 3) (h0 : w ≠ 0) :
    let θ := Real.sqrt (w ⬝ᵥ w)
    |((se3Coeff w).2.1 - (1 - Real.cos θ) / (θ * θ))| * θ + |((se3Coeff w).2.2 - (1 - Real.sin θ / θ) / (θ * θ))| * (θ * θ)
      ≤ if w ⬝ᵥ w < 1e-8 then 3e-9 else 1e-12 := by
  intro θ
  have hp : 0 < θ := Real.sqrt_pos.2 (dot_self_pos h0)
  have hsq : w ⬝ᵥ w = θ * θ := (Real.mul_self_sqrt (dot_self_nonneg w)).symm
  obtain ⟨ea, eb⟩ := coeff_error w h0
  change |((so3Coeff w).1 - Real.sin θ / θ) * θ| ≤ _ at ea
  change |((so3Coeff w).2 - (1 - Real.cos θ) / (θ * θ)) * (θ * θ)| ≤ _ at eb
  have e2 : ∀ B, |B - (1 - Real.cos θ) / (θ * θ)| * θ = |B * (θ * θ) - (1 - Real.cos θ)| / θ := by
    intro B
    rw [eq_div_iff hp.ne', mul_assoc, ← abs_of_pos (mul_pos hp hp), ← abs_mul, abs_of_pos (mul_pos hp hp)]
    congr 1
    field_simp
  by_cases c1 : w ⬝ᵥ w < 1e-8
  · rw [if_pos c1]
    simp only [se3Coeff, if_pos c1]
    rw [e2]
    have c1' := c1
    rw [hsq] at c1'
    have hθ : θ < 1e-4 := by
      by_contra hc; push Not at hc
      have := mul_le_mul hc hc (by norm_num) hp.le
      norm_num at this c1'; linarith
    obtain ⟨tc, ts⟩ := taylor6 (x := θ) (by rw [abs_of_pos hp]; linarith)
    have hB : (so3Coeff w).2 = 1 / 2 := by simp only [so3Coeff, if_pos c1]; norm_num
    rw [hB]
    have h3 : θ ^ 3 ≤ 1e-12 := by
      have := mul_le_mul (mul_le_mul hθ.le hθ.le hp.le (by norm_num)) hθ.le hp.le (by norm_num)
      calc θ ^ 3 = θ * θ * θ := by ring
        _ ≤ _ := this
        _ = 1e-12 := by norm_num
    have k1 : |1 / 2 * (θ * θ) - (1 - Real.cos θ)| ≤ θ ^ 4 := by
      rw [abs_le] at tc ⊢
      have p4 : 0 ≤ θ ^ 4 := by positivity
      have p6 : θ ^ 6 ≤ θ ^ 4 := by
        have : θ ^ 6 = θ ^ 4 * (θ * θ) := by ring
        rw [this]; norm_num at c1'; nlinarith
      constructor <;> nlinarith [tc.1, tc.2]
    have k2 : |1 / 2 * (θ * θ) - (1 - Real.cos θ)| / θ ≤ 1e-12 := by
      rw [div_le_iff₀ hp]
      refine k1.trans ?_
      have : θ ^ 4 = θ ^ 3 * θ := by ring
      rw [this]
      exact mul_le_mul_of_nonneg_right h3 hp.le
    have k3 : |0 - (1 - Real.sin θ / θ) / (θ * θ)| * (θ * θ) ≤ θ * θ / 5 := by
      rw [zero_sub, abs_neg, ← abs_of_pos (mul_pos hp hp), ← abs_mul, abs_of_pos (mul_pos hp hp)]
      have : (1 - Real.sin θ / θ) / (θ * θ) * (θ * θ) = (θ - Real.sin θ) / θ := by field_simp
      rw [this, abs_div, abs_of_pos hp, div_le_iff₀ hp]
      rw [abs_le] at ts ⊢
      have p3 : 0 ≤ θ ^ 3 := by positivity
      have p5 : θ ^ 5 ≤ θ ^ 3 * 1e-8 := by
        have : θ ^ 5 = θ ^ 3 * (θ * θ) := by ring
        rw [this]; exact mul_le_mul_of_nonneg_left c1'.le p3
      have p6 : θ ^ 6 ≤ θ ^ 5 := by
        have : θ ^ 6 = θ ^ 5 * θ := by ring
        rw [this]; have : 0 ≤ θ ^ 5 := by positivity
        nlinarith
      have p5' : 0 ≤ θ ^ 5 := by positivity
      norm_num at p5
      constructor <;> nlinarith [ts.1, ts.2]
    norm_num at k2 k3 c1' ⊢
    linarith
  · rw [if_neg c1]
    have c1' : 1e-8 ≤ θ * θ := by rw [← hsq]; exact not_lt.1 c1
    have hθ : 1e-4 ≤ θ := by
      by_contra hc; push Not at hc
      have := mul_lt_mul'' hc hc hp.le hp.le
      norm_num at this c1'; linarith
    have k1 : |(se3Coeff w).2.1 - (1 - Real.cos θ) / (θ * θ)| * θ ≤ 1e-13 := by
      have : |(se3Coeff w).2.1 - (1 - Real.cos θ) / (θ * θ)| * θ * 1e-4 ≤ 1e-17 := by
        refine le_trans ?_ eb
        rw [abs_mul, abs_of_pos (mul_pos hp hp), ← mul_assoc]
        exact mul_le_mul_of_nonneg_left hθ (mul_nonneg (abs_nonneg _) hp.le)
      norm_num at this ⊢; linarith
    have k2 : |((se3Coeff w).2.2 - (1 - Real.sin θ / θ) / (θ * θ))| * (θ * θ) ≤ 1e-13 := by
      have e : ((se3Coeff w).2.2 - (1 - Real.sin θ / θ) / (θ * θ)) * (θ * θ) = -((so3Coeff w).1 - Real.sin θ / θ) := by
        simp only [se3Coeff, if_neg c1]
        rw [hsq]; field_simp; ring
      rw [← abs_of_pos (mul_pos hp hp), ← abs_mul, abs_of_pos (mul_pos hp hp), e, abs_neg]
      have : |(so3Coeff w).1 - Real.sin θ / θ| * 1e-4 ≤ 1e-17 := by
        refine le_trans ?_ ea
        rw [abs_mul, abs_of_pos hp]
        exact mul_le_mul_of_nonneg_left hθ (abs_nonneg _)
      norm_num at this ⊢; linarith
    norm_num at k1 k2 ⊢
    linarith

/-- **C39** in every branch: the rotation entries of `exp` are within `2·10⁻¹⁷` of the exact exponential and the translation is
within a relative `3·10⁻⁹` (`10⁻¹²` when `|w|² ≥ 10⁻⁸`) -/
theorem c39_exp_error (mu : V 6) (i j : Fin 3) :
    |(se3Exp mu).mat i.castSucc j.castSucc - (NormedSpace.exp (∑ i, mu i • se3Gen i) : M 4) i.castSucc j.castSucc| ≤ 2e-17 ∧
    |(se3Exp mu).mat i.castSucc (Fin.last 3) - (NormedSpace.exp (∑ i, mu i • se3Gen i) : M 4) i.castSucc (Fin.last 3)| ≤
      (if hi mu ⬝ᵥ hi mu < 1e-8 then 3e-9 else 1e-12) * Real.sqrt (lo mu ⬝ᵥ lo mu) ∧
    (NormedSpace.exp (∑ i, mu i • se3Gen i) : M 4) (Fin.last 3) = (se3Exp mu).mat (Fin.last 3) := by
  by_cases h0 : hi mu = 0
  · rw [c39_exp_is_matrix_exponential mu (Or.inr h0)]
    refine ⟨by simp; norm_num, ?_, rfl⟩
    rw [sub_self, abs_zero]
    split_ifs <;> exact mul_nonneg (by norm_num) (Real.sqrt_nonneg _)
  have hp : 0 < Real.sqrt (hi mu ⬝ᵥ hi mu) := Real.sqrt_pos.2 (dot_self_pos h0)
  have hq := Real.mul_self_sqrt (dot_self_nonneg (hi mu))
  have hE := exp_blk_rigid (skew (hi mu)) (Real.sqrt (hi mu ⬝ᵥ hi mu)) hp.ne' (by rw [skew_cube_dot, hq]) (lo mu)
  rw [← se3_gen_sum] at hE
  have hr := c34_exp_error (hi mu) i j
  rw [gen_sum, exp_skew (hi mu) _ (sqrt_dot _) hp.ne'] at hr
  rw [hE, se3Exp_eq]
  refine ⟨?_, ?_, ?_⟩
  · simpa [SE.mat, aug] using hr
  · have ce := se3Coeff_error (hi mu) h0
    simp only at ce
    simp only [SE.mat, aug, Fin.lastCases_last, Fin.lastCases_castSucc]
    rw [← Pi.sub_apply, ← Matrix.sub_mulVec]
    generalize (if hi mu ⬝ᵥ hi mu < 1e-8 then (3e-9 : ℝ) else 1e-12) = ε at *
    set θ := Real.sqrt (hi mu ⬝ᵥ hi mu) with hθd
    have pb := poly_bound (hi mu) (lo mu) 0 ((se3Coeff (hi mu)).2.1 - (1 - Real.cos θ) / (θ * θ))
      ((se3Coeff (hi mu)).2.2 - (1 - Real.sin θ / θ) / (θ * θ)) i
    have e : (1 + (se3Coeff (hi mu)).2.1 • skew (hi mu) + (se3Coeff (hi mu)).2.2 • (skew (hi mu) * skew (hi mu)) -
        (1 + ((1 - Real.cos θ) / (θ * θ)) • skew (hi mu) + ((1 - Real.sin θ / θ) / (θ * θ)) • (skew (hi mu) * skew (hi mu))) : M 3) =
        (0:ℝ) • (1 : M 3) + ((se3Coeff (hi mu)).2.1 - (1 - Real.cos θ) / (θ * θ)) • skew (hi mu) +
        ((se3Coeff (hi mu)).2.2 - (1 - Real.sin θ / θ) / (θ * θ)) • (skew (hi mu) * skew (hi mu)) := by module
    rw [e]
    refine pb.trans ?_
    apply mul_le_mul_of_nonneg_right _ (Real.sqrt_nonneg _)
    rw [abs_zero, zero_add]
    exact ce
  · funext j
    refine Fin.lastCases ?_ (fun j => ?_) j <;> simp only [SE.mat, aug, Fin.lastCases_last, Fin.lastCases_castSucc]

end TooN.Lie
