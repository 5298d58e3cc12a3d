import Verif.Model.FloatPose
import Verif.Props.FloatFromTo
import Verif.Props.SE3
import Verif.Props.SE2
/-!
# C92: inverses and adjoints of poses in floating point
-/
set_option linter.unusedSectionVars false
namespace TooN.FlRot
open Finset Lie Matrix
variable {ρ : Rounding} {n : ℕ}

/-- how far the stored matrix may be from a rotation, and the size of a rounding -/
theorem small_bounds (hn : n ≤ 3) (hu : ρ.u ≤ 1 / 10000) :
    (n : ℝ) * ρ.u < 1 ∧ gam ρ.u n ≤ 3.01 * ρ.u ∧ Real.sqrt n ≤ 1.7321 := by
  have h0 := ρ.u_nonneg
  have hn' : (n : ℝ) ≤ 3 := by exact_mod_cast hn
  have hn0 : (0 : ℝ) ≤ n := Nat.cast_nonneg n
  refine ⟨by nlinarith, (gam_le h0 hu n (by omega)).trans (by norm_num; nlinarith), ?_⟩
  rw [Real.sqrt_le_left (by norm_num)]; norm_num; linarith

theorem frob_store (hn : n ≤ 3) (hu : ρ.u ≤ 1 / 10000) {A : M n} {Q : M n} (hQ : IsRot Q) {e : ℝ} (he : e ≤ 1 / 100)
    (ha : frob (A - Q) ≤ e) : frob A ≤ 1.7421 := by
  obtain ⟨-, -, hs⟩ := small_bounds (ρ := ρ) hn hu
  have := frob_add Q (A - Q)
  rw [add_sub_cancel, frob_orth hQ.orth] at this
  norm_num at hs ⊢; linarith

/-- a computed rotated vector, compared with the product by the stored matrix -/
theorem act_stored (hn : n ≤ 3) (hu : ρ.u ≤ 1 / 10000) (a : Mat (Fl ρ)) {Q : M n} (hQ : IsRot Q) {e : ℝ} (he : e ≤ 1 / 100)
    (ha : frob (asM n n (rmat a) - Q) ≤ e) (v w : Vec (Fl ρ)) :
    eucl (asV n (rvec (soAct n a v w)) - (asM n n (rmat a)).mulVec (asV n (rvec v))) ≤ 5.25 * ρ.u * eucl (asV n (rvec v)) := by
  obtain ⟨h1, h2, -⟩ := small_bounds hn hu
  have h0 := ρ.u_nonneg
  have hf := frob_store hn hu hQ he ha
  refine (soAct_err h1 a v w).trans ?_
  have hv := eucl_nonneg (asV n (rvec v))
  rw [← mul_assoc]
  refine mul_le_mul_of_nonneg_right ?_ hv
  have := mul_le_mul h2 hf (frob_nonneg _) (by positivity)
  norm_num at this ⊢; linarith

/-- … and with the product by the rotation -/
theorem act_near (hn : n ≤ 3) (hu : ρ.u ≤ 1 / 10000) (a : Mat (Fl ρ)) {Q : M n} (hQ : IsRot Q) {e : ℝ} (he : e ≤ 1 / 100)
    (ha : frob (asM n n (rmat a) - Q) ≤ e) (v w : Vec (Fl ρ)) :
    eucl (asV n (rvec (soAct n a v w)) - Q.mulVec (asV n (rvec v))) ≤ (e + 5.25 * ρ.u) * eucl (asV n (rvec v)) := by
  have h1 := act_stored hn hu a hQ he ha v w
  have h2 := eucl_mulVec (asM n n (rmat a) - Q) (asV n (rvec v))
  have hv := eucl_nonneg (asV n (rvec v))
  have h3 := mul_le_mul_of_nonneg_right ha hv
  have e1 : asV n (rvec (soAct n a v w)) - Q.mulVec (asV n (rvec v)) =
      (asV n (rvec (soAct n a v w)) - (asM n n (rmat a)).mulVec (asV n (rvec v))) +
        (asM n n (rmat a) - Q).mulVec (asV n (rvec v)) := by rw [Matrix.sub_mulVec]; abel
  rw [e1]
  have := eucl_add (asV n (rvec (soAct n a v w)) - (asM n n (rmat a)).mulVec (asV n (rvec v)))
    ((asM n n (rmat a) - Q).mulVec (asV n (rvec v)))
  linarith

/-- the stored matrix hardly changes lengths -/
theorem stored_len {A Q : M n} (hQ : IsRot Q) {e : ℝ} (ha : frob (A - Q) ≤ e) (v : V n) : eucl (A.mulVec v) ≤ (1 + e) * eucl v := by
  have e1 : A.mulVec v = Q.mulVec v + (A - Q).mulVec v := by rw [Matrix.sub_mulVec]; abel
  rw [e1]
  have h1 := eucl_add (Q.mulVec v) ((A - Q).mulVec v)
  have h2 := eucl_mulVec (A - Q) v
  have h3 := mul_le_mul_of_nonneg_right ha (eucl_nonneg v)
  rw [eucl_orth hQ.orth'] at h1
  linarith

/-- the stored matrix times its transpose -/
theorem stored_defect {A Q : M n} (hQ : IsRot Q) {e : ℝ} (he : e ≤ 1 / 100) (ha : frob (A - Q) ≤ e) :
    frob (A * Aᵀ - 1) ≤ 2.01 * e ∧ frob (Aᵀ * A - 1) ≤ 2.01 * e := by
  have key : ∀ (A Q : M n), Q * Qᵀ = 1 → frob (A - Q) ≤ e → frob (A * Aᵀ - 1) ≤ 2.01 * e := by
    intro A Q hQ hA
    have e0 := (frob_nonneg _).trans hA
    have e1 : A * Aᵀ - 1 = (A - Q) * Qᵀ + (Q * (A - Q)ᵀ + (A - Q) * (A - Q)ᵀ) := by
      rw [← hQ, Matrix.transpose_sub]; noncomm_ring
    have h1 := frob_add ((A - Q) * Qᵀ) (Q * (A - Q)ᵀ + (A - Q) * (A - Q)ᵀ)
    have h2 := frob_add (Q * (A - Q)ᵀ) ((A - Q) * (A - Q)ᵀ)
    have h3 := frob_mul (A - Q) (A - Q)ᵀ
    have hQ' := mul_eq_one_comm.1 hQ
    rw [← e1, frob_mul_orth _ (by rw [Matrix.transpose_transpose]; exact hQ')] at h1
    rw [frob_orth_mul _ hQ', frob_transpose] at h2
    rw [frob_transpose] at h3
    have h4 := mul_le_mul hA hA (frob_nonneg _) e0
    have h5 : e * e ≤ 1 / 100 * e := mul_le_mul_of_nonneg_right he e0
    norm_num at h5 ⊢; linarith
  refine ⟨key A Q hQ.orth ha, ?_⟩
  have := key Aᵀ Qᵀ (by rw [Matrix.transpose_transpose]; exact hQ.orth') (by rw [← Matrix.transpose_sub, frob_transpose]; exact ha)
  rwa [Matrix.transpose_transpose] at this

theorem isRot_T {Q : M n} (hQ : IsRot Q) : IsRot Qᵀ := ⟨by rw [Matrix.transpose_transpose]; exact hQ.orth', by rw [Matrix.det_transpose, hQ.det]⟩

theorem near_T (a : Mat (Fl ρ)) {Q : M n} {e : ℝ} (ha : frob (asM n n (rmat a) - Q) ≤ e) :
    frob (asM n n (rmat (soInv a)) - Qᵀ) ≤ e := by
  rw [← frob_transpose] at ha; exact ha

/-- **C92** `inverse()` of a stored pose, for `SE2` and `SE3`.  If the stored matrix is within `e` of a rotation `Q` and the stored
translation within `τ` of `b`, the rotation part of the inverse is within `e` of `Q⁻¹` and the translation part within
`τ + (e + 5.25 u)‖t‖` of `-Q⁻¹ b` -/
theorem c92_inverse (hn : n ≤ 3) (hu : ρ.u ≤ 1 / 10000) (T : Pose ρ) (w : Vec (Fl ρ)) {Q : M n} (hQ : IsRot Q) {e τ : ℝ}
    (he : e ≤ 1 / 100) (ha : frob (asM n n (rmat T.R) - Q) ≤ e) {b : V n} (hb : eucl (asV n (rvec T.t) - b) ≤ τ) :
    frob (asM n n (rmat (seInv n T w).R) - Q⁻¹) ≤ e ∧
    eucl (asV n (rvec (seInv n T w).t) - -(Q⁻¹.mulVec b)) ≤ τ + (e + 5.25 * ρ.u) * eucl (asV n (rvec T.t)) := by
  rw [Matrix.inv_eq_right_inv hQ.orth]
  have h1 := act_near hn hu (soInv T.R) (isRot_T hQ) he (near_T T.R ha) T.t w
  refine ⟨near_T T.R ha, ?_⟩
  have e1 : asV n (rvec (seInv n T w).t) = -asV n (rvec (soAct n (soInv T.R) T.t w)) := rfl
  rw [e1]
  generalize asV n (rvec (soAct n (soInv T.R) T.t w)) = s at *
  generalize asV n (rvec T.t) = t at *
  have e2 : -s - -(Qᵀ.mulVec b) = -(Qᵀ.mulVec (t - b)) - (s - Qᵀ.mulVec t) := by rw [Matrix.mulVec_sub]; abel
  rw [e2]
  have h2 := eucl_sub (-(Qᵀ.mulVec (t - b))) (s - Qᵀ.mulVec t)
  have h3 : eucl (-(Qᵀ.mulVec (t - b))) = eucl (t - b) := by
    rw [← neg_one_smul ℝ, eucl_smul', eucl_orth (isRot_T hQ).orth']; norm_num
  linarith

/-- **C92** transforming a point and transforming it back with `inverse()`: the point returns to within
`(2.01 e + 12.7 u)‖x‖ + 11.6 u ‖t‖`; a drifted rotation does not multiply the translation -/
theorem c92_round_trip (hn : n ≤ 3) (hu : ρ.u ≤ 1 / 10000) (T : Pose ρ) (x w w1 w2 w3 w4 : Vec (Fl ρ)) {Q : M n} (hQ : IsRot Q)
    {e : ℝ} (he : e ≤ 1 / 100) (ha : frob (asM n n (rmat T.R) - Q) ≤ e) :
    eucl (asV n (rvec (seAct n (seInv n T w) (seAct n T x w1 w2) w3 w4)) - asV n (rvec x)) ≤
      (2.01 * e + 12.7 * ρ.u) * eucl (asV n (rvec x)) + 11.6 * ρ.u * eucl (asV n (rvec T.t)) := by
  have u0 := ρ.u_nonneg
  have e0 := (frob_nonneg _).trans ha
  have hT := near_T T.R ha
  have k1 := act_stored hn hu T.R hQ he ha x w1
  have k2 := addV_err (n := n) T.t (soAct n T.R x w1) w2
  have k3 := act_stored hn hu (soInv T.R) (isRot_T hQ) he hT (seAct n T x w1 w2) w3
  have k4 := act_stored hn hu (soInv T.R) (isRot_T hQ) he hT T.t w
  have k5 := addV_err (n := n) (seInv n T w).t (soAct n (soInv T.R) (seAct n T x w1 w2) w3) w4
  have e1 : asV n (rvec (seInv n T w).t) = -asV n (rvec (soAct n (soInv T.R) T.t w)) := rfl
  have e2 : asM n n (rmat (soInv T.R)) = (asM n n (rmat T.R))ᵀ := rfl
  rw [e1] at k5
  rw [e2] at k3 k4
  change eucl (asV n (rvec (seAct n T x w1 w2)) - _) ≤ _ at k2
  change eucl (asV n (rvec (Ops.addV n (seInv n T w).t (soAct n (soInv T.R) (seAct n T x w1 w2) w3) w4)) - _) ≤ _
  generalize asV n (rvec (Ops.addV n (seInv n T w).t (soAct n (soInv T.R) (seAct n T x w1 w2) w3) w4)) = z at *
  generalize asV n (rvec (soAct n (soInv T.R) (seAct n T x w1 w2) w3)) = c at *
  generalize asV n (rvec (seAct n T x w1 w2)) = y at *
  generalize asV n (rvec (soAct n (soInv T.R) T.t w)) = s at *
  generalize asV n (rvec (soAct n T.R x w1)) = a at *
  generalize asV n (rvec x) = X at *
  generalize asV n (rvec T.t) = t at *
  rw [e2] at hT
  have l1 := stored_len hQ ha X
  have l2 := fun v => stored_len (isRot_T hQ) hT v
  have hd := (stored_defect hQ he ha).2
  generalize asM n n (rmat T.R) = A at *
  have hX := eucl_nonneg X
  have ht := eucl_nonneg t
  -- lengths
  have a1 : eucl a ≤ 1.0106 * eucl X := by
    have := eucl_le_of a (A.mulVec X) k1
    have m1 := mul_le_mul_of_nonneg_right he hX
    have m2 := mul_le_mul_of_nonneg_right hu hX
    norm_num at this m1 m2 ⊢; linarith
  have y0 : eucl (t + a) ≤ eucl t + 1.0106 * eucl X := (eucl_add t a).trans (by linarith)
  have y1 : eucl (y - (t + a)) ≤ ρ.u * (eucl t + 1.0106 * eucl X) := k2.trans (mul_le_mul_of_nonneg_left y0 u0)
  have y2 : eucl y ≤ 1.0001 * (eucl t + 1.0106 * eucl X) := by
    have := eucl_le_of y (t + a) y1
    have m := mul_le_mul_of_nonneg_right hu (show 0 ≤ eucl t + 1.0106 * eucl X by positivity)
    norm_num at this m ⊢; linarith
  -- the sum before the last rounding
  have e3 : -s + c - X = (Aᵀ * A - 1).mulVec X + (Aᵀ.mulVec (a - A.mulVec X) + (Aᵀ.mulVec (y - (t + a)) +
      ((c - Aᵀ.mulVec y) - (s - Aᵀ.mulVec t)))) := by
    rw [Matrix.sub_mulVec, Matrix.one_mulVec, ← Matrix.mulVec_mulVec]
    simp only [Matrix.mulVec_sub, Matrix.mulVec_add]; abel
  have d1 := eucl_mulVec (Aᵀ * A - 1) X
  have d2 := l2 (a - A.mulVec X)
  have d3 := l2 (y - (t + a))
  have d1' := mul_le_mul_of_nonneg_right hd hX
  have d2' : (1 + e) * eucl (a - A.mulVec X) ≤ 1.01 * (5.25 * ρ.u * eucl X) :=
    mul_le_mul (by norm_num at he ⊢; linarith) k1 (eucl_nonneg _) (by norm_num)
  have d3' : (1 + e) * eucl (y - (t + a)) ≤ 1.01 * (ρ.u * (eucl t + 1.0106 * eucl X)) :=
    mul_le_mul (by norm_num at he ⊢; linarith) y1 (eucl_nonneg _) (by norm_num)
  have d4 : 5.25 * ρ.u * eucl y ≤ 5.25 * ρ.u * (1.0001 * (eucl t + 1.0106 * eucl X)) := mul_le_mul_of_nonneg_left y2 (by positivity)
  have s1 : eucl (-s + c - X) ≤ 2.01 * e * eucl X + 11.64 * ρ.u * eucl X + 11.52 * ρ.u * eucl t := by
    rw [e3]
    have g1 := eucl_add ((Aᵀ * A - 1).mulVec X) (Aᵀ.mulVec (a - A.mulVec X) + (Aᵀ.mulVec (y - (t + a)) +
      ((c - Aᵀ.mulVec y) - (s - Aᵀ.mulVec t))))
    have g2 := eucl_add (Aᵀ.mulVec (a - A.mulVec X)) (Aᵀ.mulVec (y - (t + a)) + ((c - Aᵀ.mulVec y) - (s - Aᵀ.mulVec t)))
    have g3 := eucl_add (Aᵀ.mulVec (y - (t + a))) ((c - Aᵀ.mulVec y) - (s - Aᵀ.mulVec t))
    have g4 := eucl_sub (c - Aᵀ.mulVec y) (s - Aᵀ.mulVec t)
    have p1 : 0 ≤ ρ.u * eucl X := mul_nonneg u0 hX
    have p2 : 0 ≤ ρ.u * eucl t := mul_nonneg u0 ht
    clear y0 y1 y2 a1 k1 k2 hd he hu l1 l2 e3 k5 hT ha
    generalize eucl ((Aᵀ * A - 1).mulVec X + _) = b1 at *
    generalize eucl (Aᵀ.mulVec (a - A.mulVec X) + _) = b2 at *
    generalize eucl (Aᵀ.mulVec (y - (t + a)) + _) = b3 at *
    generalize eucl ((c - Aᵀ.mulVec y) - (s - Aᵀ.mulVec t)) = b4 at *
    norm_num at d1' d2' d3' d4 k3 k4 ⊢
    linarith
  have s2 := eucl_le_of (-s + c) X s1
  have s3 := mul_le_mul_of_nonneg_left s2 u0
  have e4 : z - X = (z - (-s + c)) + (-s + c - X) := by abel
  rw [e4]
  have g := eucl_add (z - (-s + c)) (-s + c - X)
  have q1 : ρ.u * (2.01 * e * eucl X) ≤ 0.0201 * (ρ.u * eucl X) := by
    have := mul_le_mul_of_nonneg_left (mul_le_mul_of_nonneg_right he hX) u0
    norm_num at this ⊢; linarith
  have q2 : ρ.u * (11.64 * ρ.u * eucl X) ≤ 0.002 * (ρ.u * eucl X) := by
    have := mul_le_mul_of_nonneg_left (mul_le_mul_of_nonneg_right hu hX) u0
    have p1 : 0 ≤ ρ.u * eucl X := mul_nonneg u0 hX
    norm_num at this ⊢; linarith
  have q3 : ρ.u * (11.52 * ρ.u * eucl t) ≤ 0.002 * (ρ.u * eucl t) := by
    have := mul_le_mul_of_nonneg_left (mul_le_mul_of_nonneg_right hu ht) u0
    have p1 : 0 ≤ ρ.u * eucl t := mul_nonneg u0 ht
    norm_num at this ⊢; linarith
  have p1 : 0 ≤ ρ.u * eucl X := mul_nonneg u0 hX
  have p2 : 0 ≤ ρ.u * eucl t := mul_nonneg u0 ht
  linarith

end TooN.FlRot
