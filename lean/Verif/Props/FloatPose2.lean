import Verif.Props.FloatPose
import Verif.Props.FloatSE3
/-!
# C92, continued: products with the inverse, adjoints
-/
set_option linter.unusedSectionVars false
namespace TooN.FlRot
open Finset Lie Matrix
variable {ρ : Rounding} {n : ℕ}

theorem eucl_neg (v : V n) : eucl (-v) = eucl v := by rw [← neg_one_smul ℝ, eucl_smul']; norm_num

/-- **C92** `T * T.inverse()` is the identity to within `2.01 e + 9.2 u` in the rotation part (Frobenius norm) and
`(2.01 e + 10.7 u)‖t‖` in the translation part -/
theorem c92_mul_inverse (hn : n ≤ 3) (hu : ρ.u ≤ 1 / 10000) (T : Pose ρ) (w : Vec (Fl ρ)) (W : Junk ρ) {Q : M n} (hQ : IsRot Q)
    {e : ℝ} (he : e ≤ 1 / 100) (ha : frob (asM n n (rmat T.R) - Q) ≤ e) :
    frob (asM n n (rmat (seMul n T (seInv n T w) W).R) - 1) ≤ 2.01 * e + 9.2 * ρ.u ∧
    eucl (asV n (rvec (seMul n T (seInv n T w) W).t)) ≤ (2.01 * e + 10.7 * ρ.u) * eucl (asV n (rvec T.t)) := by
  have u0 := ρ.u_nonneg
  have e0 := (frob_nonneg _).trans ha
  have hT := near_T T.R ha
  obtain ⟨h1, h2, -⟩ := small_bounds hn hu
  have e2 : asM n n (rmat (soInv T.R)) = (asM n n (rmat T.R))ᵀ := rfl
  constructor
  · have k := soMul_err h1 T.R (soInv T.R) W.m
    have f1 := frob_store hn hu hQ he ha
    have hd := (stored_defect hQ he ha).1
    change frob (asM n n (rmat (soMul n T.R (soInv T.R) W.m)) - 1) ≤ _
    rw [e2, frob_transpose] at k
    generalize asM n n (rmat (soMul n T.R (soInv T.R) W.m)) = P at *
    generalize asM n n (rmat T.R) = A at *
    have m1 : frob A * frob A ≤ 1.7421 * 1.7421 := mul_le_mul f1 f1 (frob_nonneg _) (by norm_num)
    have m2 : gam ρ.u n * (frob A * frob A) ≤ 3.01 * ρ.u * (1.7421 * 1.7421) :=
      mul_le_mul h2 m1 (mul_nonneg (frob_nonneg _) (frob_nonneg _)) (by positivity)
    have e3 : P - 1 = (P - A * Aᵀ) + (A * Aᵀ - 1) := by abel
    rw [e3]
    have := frob_add (P - A * Aᵀ) (A * Aᵀ - 1)
    linarith
  · have k1 := act_stored hn hu (soInv T.R) (isRot_T hQ) he hT T.t w
    have k2 := act_stored hn hu T.R hQ he ha (seInv n T w).t W.v1
    have k3 := addV_err (n := n) T.t (soAct n T.R (seInv n T w).t W.v1) W.v2
    have e1 : asV n (rvec (seInv n T w).t) = -asV n (rvec (soAct n (soInv T.R) T.t w)) := rfl
    change eucl (asV n (rvec (Ops.addV n T.t (soAct n T.R (seInv n T w).t W.v1) W.v2))) ≤ _
    rw [e1] at k2
    rw [e2] at k1
    generalize asV n (rvec (Ops.addV n T.t (soAct n T.R (seInv n T w).t W.v1) W.v2)) = z at *
    generalize asV n (rvec (soAct n T.R (seInv n T w).t W.v1)) = a at *
    generalize asV n (rvec (soAct n (soInv T.R) T.t w)) = s at *
    generalize asV n (rvec T.t) = t at *
    rw [e2] at hT
    have hd := (stored_defect hQ he ha).1
    have l1 := stored_len (isRot_T hQ) hT t
    have l2 := stored_len hQ ha (s - (asM n n (rmat T.R))ᵀ.mulVec t)
    generalize asM n n (rmat T.R) = A at *
    have ht := eucl_nonneg t
    have ut : 0 ≤ ρ.u * eucl t := mul_nonneg u0 ht
    have s1 : eucl s ≤ 1.0106 * eucl t := by
      have := eucl_le_of s (Aᵀ.mulVec t) k1
      have m1 := mul_le_mul_of_nonneg_right he ht
      have m2 := mul_le_mul_of_nonneg_right hu ht
      linarith
    rw [eucl_neg] at k2
    have k2' : eucl (a - A.mulVec (-s)) ≤ 5.25 * ρ.u * (1.0106 * eucl t) := k2.trans (mul_le_mul_of_nonneg_left s1 (by positivity))
    have l2' : (1 + e) * eucl (s - Aᵀ.mulVec t) ≤ 1.01 * (5.25 * ρ.u * eucl t) :=
      mul_le_mul (by norm_num at he ⊢; linarith) k1 (eucl_nonneg _) (by norm_num)
    have d1 := (eucl_mulVec (A * Aᵀ - 1) t).trans (mul_le_mul_of_nonneg_right hd ht)
    have e3 : t + a = (a - A.mulVec (-s)) - (A.mulVec (s - Aᵀ.mulVec t) + (A * Aᵀ - 1).mulVec t) := by
      rw [Matrix.sub_mulVec, Matrix.one_mulVec, ← Matrix.mulVec_mulVec]
      simp only [Matrix.mulVec_sub, Matrix.mulVec_neg]; abel
    have g1 := eucl_sub (a - A.mulVec (-s)) (A.mulVec (s - Aᵀ.mulVec t) + (A * Aᵀ - 1).mulVec t)
    have g2 := eucl_add (A.mulVec (s - Aᵀ.mulVec t)) ((A * Aᵀ - 1).mulVec t)
    rw [← e3] at g1
    have b1 : eucl (t + a) ≤ 2.01 * e * eucl t + 10.61 * (ρ.u * eucl t) := by linarith
    have b2 := mul_le_mul_of_nonneg_left b1 u0
    have b3 := mul_le_mul_of_nonneg_left (mul_le_mul_of_nonneg_right he ht) u0
    have b4 := mul_le_mul_of_nonneg_right hu ut
    have := eucl_le_of z (t + a) k3
    linarith

/-- the two slices of a 6-vector -/
theorem slices (v : Vec (Fl ρ)) : lo (asV 6 (rvec v)) = asV 3 (rvec v) ∧ hi (asV 6 (rvec v)) = asV 3 (rvec fun i => v (3 + i)) := by
  constructor <;> funext i <;> fin_cases i <;> rfl

/-- slices of `adjoint` -/
theorem adjoint_near (hu : ρ.u ≤ 1 / 10000) (T : Pose ρ) {Q : M 3} (hQ : IsRot Q) {e : ℝ} (he : e ≤ 1 / 100)
    (ha : frob (asM 3 3 (rmat T.R) - Q) ≤ e) (v v' w1 w2 w3 z : Vec (Fl ρ)) :
    eucl (asV 3 (rvec (fun i => soAct 3 T.R v w1 i + Ops.cross T.t (soAct 3 T.R v' w2) w3 i)) -
      (Q.mulVec (asV 3 (rvec v)) + crossV (asV 3 (rvec T.t)) (Q.mulVec (asV 3 (rvec v'))))) ≤
      (e + 6.3 * ρ.u) * eucl (asV 3 (rvec v)) + (e + 9.2 * ρ.u) * (eucl (asV 3 (rvec T.t)) * eucl (asV 3 (rvec v'))) := by
  have u0 := ρ.u_nonneg
  have e0 := (frob_nonneg _).trans ha
  have k1 := act_near le_rfl hu T.R hQ he ha v w1
  have k2 := act_near le_rfl hu T.R hQ he ha v' w2
  have k3 := cross_near hu T.t (soAct 3 T.R v' w2) w3
  have k4 := addV_err (n := 3) (soAct 3 T.R v w1) (Ops.cross T.t (soAct 3 T.R v' w2) w3) z
  have e1 : asV 3 (rvec (Ops.addV 3 (soAct 3 T.R v w1) (Ops.cross T.t (soAct 3 T.R v' w2) w3) z)) =
      asV 3 (rvec (fun i => soAct 3 T.R v w1 i + Ops.cross T.t (soAct 3 T.R v' w2) w3 i)) := by
    funext i
    change Fl.val (Ops.addV 3 _ _ _ i.val) = _
    rw [Ops.addV, Ops.pairwiseV, forN_vecset, if_pos i.2]; rfl
  rw [e1] at k4
  generalize asV 3 (rvec (fun i => soAct 3 T.R v w1 i + Ops.cross T.t (soAct 3 T.R v' w2) w3 i)) = y at *
  generalize asV 3 (rvec (Ops.cross T.t (soAct 3 T.R v' w2) w3)) = c at *
  generalize asV 3 (rvec (soAct 3 T.R v' w2)) = r at *
  generalize asV 3 (rvec (soAct 3 T.R v w1)) = a at *
  generalize asV 3 (rvec T.t) = t at *
  have q1 : eucl (Q.mulVec (asV 3 (rvec v))) = _ := eucl_orth hQ.orth' _
  have q2 : eucl (Q.mulVec (asV 3 (rvec v'))) = _ := eucl_orth hQ.orth' _
  generalize asV 3 (rvec v) = p at *
  generalize asV 3 (rvec v') = p' at *
  have hp := eucl_nonneg p
  have hp' := eucl_nonneg p'
  have ht := eucl_nonneg t
  have htp := mul_nonneg ht hp'
  have up := mul_nonneg u0 hp
  have utp := mul_nonneg u0 htp
  have c1 : eucl (crossV t (r - Q.mulVec p')) ≤ _ := eucl_cross t (r - Q.mulVec p')
  rw [cross_sub_right] at c1
  have c2 : eucl (crossV t (Q.mulVec p')) ≤ _ := eucl_cross t (Q.mulVec p')
  rw [q2] at c2
  have r1 : eucl r ≤ 1.0106 * eucl p' := by
    have := eucl_le_of r (Q.mulVec p') k2
    rw [q2] at this
    have m1 := mul_le_mul_of_nonneg_right he hp'
    have m2 := mul_le_mul_of_nonneg_right hu hp'
    linarith
  have c1' := mul_le_mul_of_nonneg_left k2 ht
  have k3' : 2.84 * ρ.u * (eucl t * eucl r) ≤ 2.84 * ρ.u * (eucl t * (1.0106 * eucl p')) :=
    mul_le_mul_of_nonneg_left (mul_le_mul_of_nonneg_left r1 ht) (by positivity)
  have d1 : eucl (c - crossV t (Q.mulVec p')) ≤ (e + 8.13 * ρ.u) * (eucl t * eucl p') := by
    have e3 : c - crossV t (Q.mulVec p') = (c - crossV t r) + (crossV t r - crossV t (Q.mulVec p')) := by abel
    rw [e3]
    have := eucl_add (c - crossV t r) (crossV t r - crossV t (Q.mulVec p'))
    linarith
  have d2 : eucl ((a + c) - (Q.mulVec p + crossV t (Q.mulVec p'))) ≤
      (e + 5.25 * ρ.u) * eucl p + (e + 8.13 * ρ.u) * (eucl t * eucl p') := by
    have e3 : (a + c) - (Q.mulVec p + crossV t (Q.mulVec p')) = (a - Q.mulVec p) + (c - crossV t (Q.mulVec p')) := by abel
    rw [e3]
    exact (eucl_add _ _).trans (add_le_add k1 d1)
  have d3 := eucl_le_of _ _ d2
  have d4 := eucl_add (Q.mulVec p) (crossV t (Q.mulVec p'))
  have e3 : y - (Q.mulVec p + crossV t (Q.mulVec p')) = (y - (a + c)) + ((a + c) - (Q.mulVec p + crossV t (Q.mulVec p'))) := by abel
  rw [e3]
  have d5 := eucl_add (y - (a + c)) ((a + c) - (Q.mulVec p + crossV t (Q.mulVec p')))
  have d6 : eucl (a + c) ≤ 1.0106 * eucl p + 1.011 * (eucl t * eucl p') := by
    have m1 := mul_le_mul_of_nonneg_right he hp
    have m2 := mul_le_mul_of_nonneg_right hu hp
    have m3 := mul_le_mul_of_nonneg_right he htp
    have m4 := mul_le_mul_of_nonneg_right hu htp
    rw [q1] at d4
    linarith
  have d7 := mul_le_mul_of_nonneg_left d6 u0
  linarith

/-- **C92** `SE3::adjoint(v)`: with `X = [Q t; 0 1]`, `Q` the rotation the stored matrix is near, conjugating the twist `v` by `X` gives a
twist `a`, and the stored result differs from it by at most `(e + 6.3 u)‖v_t‖ + (e + 9.2 u)‖t‖‖v_r‖` in the translational part and
`(e + 5.25 u)‖v_r‖` in the rotational part -/
theorem c92_adjoint (hu : ρ.u ≤ 1 / 10000) (T : Pose ρ) {Q : M 3} (hQ : IsRot Q) {e : ℝ} (he : e ≤ 1 / 100)
    (ha : frob (asM 3 3 (rmat T.R) - Q) ≤ e) (v w1 w2 w3 : Vec (Fl ρ)) :
    ∃ a : V 6, hom Q (asV 3 (rvec T.t)) * (∑ i, asV 6 (rvec v) i • se3Gen i) * (hom Q (asV 3 (rvec T.t)))⁻¹ = ∑ i, a i • se3Gen i ∧
      eucl (asV 3 (rvec (se3AdjointFl T v w1 w2 w3)) - ![a 0, a 1, a 2]) ≤
        (e + 6.3 * ρ.u) * eucl (asV 3 (rvec v)) +
          (e + 9.2 * ρ.u) * (eucl (asV 3 (rvec T.t)) * eucl (asV 3 (rvec fun i => v (3 + i)))) ∧
      eucl (asV 3 (rvec fun i => se3AdjointFl T v w1 w2 w3 (3 + i)) - ![a 3, a 4, a 5]) ≤
        (e + 5.25 * ρ.u) * eucl (asV 3 (rvec fun i => v (3 + i))) := by
  have h := c38_adjoint_algebra ⟨Q, asV 3 (rvec T.t)⟩ hQ (asV 6 (rvec v))
  have h3 := (c37_inverse ⟨Q, asV 3 (rvec T.t)⟩ hQ).2.2
  rw [h3, SE.mat] at h
  obtain ⟨s1, s2⟩ := slices v
  refine ⟨_, h, ?_, ?_⟩
  · have := adjoint_near hu T hQ he ha v (fun i => v (3 + i)) w2 w1 w3 w1
    change eucl (_ - lo _) ≤ _
    unfold se3Adjoint
    rw [lo_join, s1, s2]
    exact this
  · have := act_near le_rfl hu T.R hQ he ha (fun i => v (3 + i)) w1
    change eucl (_ - hi _) ≤ _
    unfold se3Adjoint
    rw [hi_join, s2]
    exact this

theorem act_size {Q : M n} (hQ : IsRot Q) (hu : ρ.u ≤ 1 / 10000) {e : ℝ} (he : e ≤ 1 / 100) {x A : V n}
    (h : eucl (x - Q.mulVec A) ≤ (e + 5.25 * ρ.u) * eucl A) : eucl x ≤ 1.0106 * eucl A := by
  have := eucl_le_of x _ h
  rw [eucl_orth hQ.orth'] at this
  have m0 := eucl_nonneg A
  have m1 := mul_le_mul_of_nonneg_right he m0
  have m2 := mul_le_mul_of_nonneg_right hu m0
  linarith

theorem adjoint_lo (T : Pose ρ) (v w1 w2 w3 : Vec (Fl ρ)) : asV 3 (rvec (se3AdjointFl T v w1 w2 w3)) =
    asV 3 (rvec (fun i => soAct 3 T.R v w2 i + Ops.cross T.t (soAct 3 T.R (fun i => v (3 + i)) w1) w3 i)) := by
  funext i
  change Fl.val (se3AdjointFl T v w1 w2 w3 i.val) = _
  rw [se3AdjointFl]; dsimp only; rw [if_pos i.2]; rfl

theorem adjoint_hi (T : Pose ρ) (v w1 w2 w3 : Vec (Fl ρ)) : (fun i => se3AdjointFl T v w1 w2 w3 (3 + i)) =
    soAct 3 T.R (fun i => v (3 + i)) w1 := by
  funext i; simp [se3AdjointFl]

theorem trinv_lo (T : Pose ρ) (v w1 w2 w3 : Vec (Fl ρ)) : asV 3 (rvec (se3TrInvAdjointFl T v w1 w2 w3)) =
    asV 3 (rvec (soAct 3 T.R v w2)) := by
  funext i
  change Fl.val (se3TrInvAdjointFl T v w1 w2 w3 i.val) = _
  rw [se3TrInvAdjointFl]; dsimp only; rw [if_pos i.2]; rfl

theorem trinv_hi (T : Pose ρ) (v w1 w2 w3 : Vec (Fl ρ)) : (fun i => se3TrInvAdjointFl T v w1 w2 w3 (3 + i)) =
    fun i => soAct 3 T.R (fun i => v (3 + i)) w1 i + Ops.cross T.t (soAct 3 T.R v w2) w3 i := by
  funext i; simp [se3TrInvAdjointFl]

theorem pairing_arith {u e A B C D t z1 z2 z3 z4 : ℝ} (u0 : 0 ≤ u) (e0 : 0 ≤ e) (hA : 0 ≤ A) (hB : 0 ≤ B) (hC : 0 ≤ C) (hD : 0 ≤ D)
    (ht : 0 ≤ t) (b1 : |z1| ≤ (e + 5.25 * u) * A * (C + t * D))
    (b2 : |z2| ≤ 1.0106 * A * ((e + 6.3 * u) * C + (e + 9.2 * u) * (t * D)))
    (b3 : |z3| ≤ ((e + 6.3 * u) * B + (e + 9.2 * u) * (t * A)) * (1.0106 * D))
    (b4 : |z4| ≤ (B + t * A) * ((e + 5.25 * u) * D)) :
    |z1 + z2 + z3 + z4| ≤ (2.02 * e + 11.7 * u) * (A * C + B * D) + (4.04 * e + 29.2 * u) * (t * (A * D)) := by
  have t1 := abs_add_le (z1 + z2 + z3) z4
  have t2 := abs_add_le (z1 + z2) z3
  have t3 := abs_add_le z1 z2
  have uAC := mul_nonneg u0 (mul_nonneg hA hC)
  have uBD := mul_nonneg u0 (mul_nonneg hB hD)
  have uAD := mul_nonneg u0 (mul_nonneg ht (mul_nonneg hA hD))
  have eAC := mul_nonneg e0 (mul_nonneg hA hC)
  have eBD := mul_nonneg e0 (mul_nonneg hB hD)
  have eAD := mul_nonneg e0 (mul_nonneg ht (mul_nonneg hA hD))
  linarith

set_option maxHeartbeats 1000000 in
/-- **C92** `trinvadjoint(a) * adjoint(b) = a * b` up to `(2.02 e + 11.7 u)(‖a_t‖‖b_t‖ + ‖a_r‖‖b_r‖) + (4.04 e + 29.2 u)‖t‖‖a_t‖‖b_r‖` -/
theorem c92_pairing (hu : ρ.u ≤ 1 / 10000) (T : Pose ρ) {Q : M 3} (hQ : IsRot Q) {e : ℝ} (he : e ≤ 1 / 100)
    (ha : frob (asM 3 3 (rmat T.R) - Q) ≤ e) (a b w1 w2 w3 w4 w5 w6 : Vec (Fl ρ)) :
    |asV 6 (rvec (se3TrInvAdjointFl T a w1 w2 w3)) ⬝ᵥ asV 6 (rvec (se3AdjointFl T b w4 w5 w6)) - asV 6 (rvec a) ⬝ᵥ asV 6 (rvec b)| ≤
      (2.02 * e + 11.7 * ρ.u) * (eucl (asV 3 (rvec a)) * eucl (asV 3 (rvec b)) +
        eucl (asV 3 (rvec fun i => a (3 + i))) * eucl (asV 3 (rvec fun i => b (3 + i)))) +
      (4.04 * e + 29.2 * ρ.u) * (eucl (asV 3 (rvec T.t)) * (eucl (asV 3 (rvec a)) * eucl (asV 3 (rvec fun i => b (3 + i))))) := by
  have u0 := ρ.u_nonneg
  have e0 := (frob_nonneg _).trans ha
  have dot6 : ∀ x y : Vec (Fl ρ), asV 6 (rvec x) ⬝ᵥ asV 6 (rvec y) = asV 3 (rvec x) ⬝ᵥ asV 3 (rvec y) +
      asV 3 (rvec fun i => x (3 + i)) ⬝ᵥ asV 3 (rvec fun i => y (3 + i)) := by
    intro x y
    simp only [dotProduct, Fin.sum_univ_succ, Fin.sum_univ_zero]
    simp [asV, rvec]; ring
  have k1 := act_near le_rfl hu T.R hQ he ha a w2
  have k2 := adjoint_near hu T hQ he ha (fun i => a (3 + i)) a w1 w2 w3 w1
  have k3 := adjoint_near hu T hQ he ha b (fun i => b (3 + i)) w5 w4 w6 w1
  have k4 := act_near le_rfl hu T.R hQ he ha (fun i => b (3 + i)) w4
  rw [← trinv_lo T a w1 w2 w3] at k1
  rw [← trinv_hi] at k2
  rw [← adjoint_lo] at k3
  rw [← adjoint_hi T b w4 w5 w6] at k4
  rw [dot6, dot6]
  generalize asV 3 (rvec (se3TrInvAdjointFl T a w1 w2 w3)) = x1 at *
  generalize asV 3 (rvec fun i => se3TrInvAdjointFl T a w1 w2 w3 (3 + i)) = x2 at *
  generalize asV 3 (rvec (se3AdjointFl T b w4 w5 w6)) = y1 at *
  generalize asV 3 (rvec fun i => se3AdjointFl T b w4 w5 w6 (3 + i)) = y2 at *
  generalize asV 3 (rvec T.t) = t at *
  have q : ∀ v : V 3, eucl (Q.mulVec v) = eucl v := fun v => eucl_orth hQ.orth' v
  have qq : ∀ v w : V 3, Q.mulVec v ⬝ᵥ Q.mulVec w = v ⬝ᵥ w := fun v w => by
    rw [dotProduct_mulVec, ← mulVec_transpose, mulVec_mulVec, hQ.orth', one_mulVec]
  generalize asV 3 (rvec a) = A at *
  generalize asV 3 (rvec fun i => a (3 + i)) = B at *
  generalize asV 3 (rvec b) = C at *
  generalize asV 3 (rvec fun i => b (3 + i)) = D at *
  have hA := eucl_nonneg A
  have hB := eucl_nonneg B
  have hC := eucl_nonneg C
  have hD := eucl_nonneg D
  have ht := eucl_nonneg t
  -- exact pairing
  have ex : Q.mulVec A ⬝ᵥ (Q.mulVec C + crossV t (Q.mulVec D)) + (Q.mulVec B + crossV t (Q.mulVec A)) ⬝ᵥ Q.mulVec D = A ⬝ᵥ C + B ⬝ᵥ D := by
    rw [dotProduct_add, add_dotProduct, qq, qq]
    have : Q.mulVec A ⬝ᵥ crossV t (Q.mulVec D) + crossV t (Q.mulVec A) ⬝ᵥ Q.mulVec D = 0 := by
      generalize Q.mulVec A = p
      generalize Q.mulVec D = r
      simp only [dotProduct, Fin.sum_univ_three, crossV, Matrix.cons_val_zero, Matrix.cons_val_one, Matrix.cons_val]; ring
    linarith
  -- sizes
  have sx := act_size hQ hu he k1
  have sy := act_size hQ hu he k4
  have cr : ∀ A D : V 3, eucl (Q.mulVec A + crossV t (Q.mulVec D)) ≤ eucl A + eucl t * eucl D := by
    intro A D
    have c : eucl (crossV t (Q.mulVec D)) ≤ _ := eucl_cross t (Q.mulVec D)
    have := eucl_add (Q.mulVec A) (crossV t (Q.mulVec D))
    rw [q] at this c
    linarith
  have e1 : x1 ⬝ᵥ y1 + x2 ⬝ᵥ y2 - (A ⬝ᵥ C + B ⬝ᵥ D) =
      (x1 - Q.mulVec A) ⬝ᵥ (Q.mulVec C + crossV t (Q.mulVec D)) + x1 ⬝ᵥ (y1 - (Q.mulVec C + crossV t (Q.mulVec D))) +
      (x2 - (Q.mulVec B + crossV t (Q.mulVec A))) ⬝ᵥ y2 + (Q.mulVec B + crossV t (Q.mulVec A)) ⬝ᵥ (y2 - Q.mulVec D) := by
    rw [← ex]; simp only [sub_dotProduct, dotProduct_sub]; ring
  rw [e1]
  have b1 := (abs_dot_le (x1 - Q.mulVec A) (Q.mulVec C + crossV t (Q.mulVec D))).trans
    (mul_le_mul k1 (cr C D) (eucl_nonneg _) (by positivity))
  have b2 := (abs_dot_le x1 (y1 - (Q.mulVec C + crossV t (Q.mulVec D)))).trans
    (mul_le_mul sx k3 (eucl_nonneg _) (by positivity))
  have b3 := (abs_dot_le (x2 - (Q.mulVec B + crossV t (Q.mulVec A))) y2).trans
    (mul_le_mul k2 sy (eucl_nonneg _) (by positivity))
  have b4 := (abs_dot_le (Q.mulVec B + crossV t (Q.mulVec A)) (y2 - Q.mulVec D)).trans
    (mul_le_mul (cr B A) k4 (eucl_nonneg _) (by positivity))
  generalize (x1 - Q.mulVec A) ⬝ᵥ (Q.mulVec C + crossV t (Q.mulVec D)) = z1 at *
  generalize x1 ⬝ᵥ (y1 - (Q.mulVec C + crossV t (Q.mulVec D))) = z2 at *
  generalize (x2 - (Q.mulVec B + crossV t (Q.mulVec A))) ⬝ᵥ y2 = z3 at *
  generalize (Q.mulVec B + crossV t (Q.mulVec A)) ⬝ᵥ (y2 - Q.mulVec D) = z4 at *
  exact pairing_arith u0 e0 (eucl_nonneg A) (eucl_nonneg B) (eucl_nonneg C) (eucl_nonneg D) (eucl_nonneg t) b1 b2 b3 b4

/-- **C92** `SE2::adjoint(v)`: the last entry is exact, the others are within `(e + 6.3 u)‖v_t‖ + 2.01 u ‖t‖|v_r|` of the conjugated twist -/
theorem c92_se2_adjoint (hu : ρ.u ≤ 1 / 10000) (T : Pose ρ) {Q : M 2} (hQ : IsRot Q) {e : ℝ} (he : e ≤ 1 / 100)
    (ha : frob (asM 2 2 (rmat T.R) - Q) ≤ e) (v w r : Vec (Fl ρ)) :
    ∃ a : V 3, hom Q (asV 2 (rvec T.t)) * (∑ i, asV 3 (rvec v) i • se2Gen i) * (hom Q (asV 2 (rvec T.t)))⁻¹ = ∑ i, a i • se2Gen i ∧
      eucl (asV 2 (rvec (se2AdjointFl T v w r)) - ![a 0, a 1]) ≤
        (e + 6.3 * ρ.u) * eucl (asV 2 (rvec v)) + 2.01 * ρ.u * (eucl (asV 2 (rvec T.t)) * |(v 2).val|) ∧
      (se2AdjointFl T v w r 2).val = a 2 := by
  have h := c38_se2_adjoint_algebra ⟨Q, asV 2 (rvec T.t)⟩ hQ (asV 3 (rvec v))
  have h3 := (c37_inverse ⟨Q, asV 2 (rvec T.t)⟩ hQ).2.2
  rw [h3, SE.mat] at h
  refine ⟨_, h, ?_, by simp [se2AdjointFl, se2Adjoint, Vec.set]; rfl⟩
  have u0 := ρ.u_nonneg
  have e0 := (frob_nonneg _).trans ha
  have k1 := act_near (by norm_num) hu T.R hQ he ha v w
  -- the two products, before they are added
  have k2 := addV_err (n := 2) (soAct 2 T.R v w) (fun i => if i = 0 then v 2 * T.t 1 else -(v 2 * T.t 0)) r
  have e1 : asV 2 (rvec (se2AdjointFl T v w r)) =
      asV 2 (rvec (Ops.addV 2 (soAct 2 T.R v w) (fun i => if i = 0 then v 2 * T.t 1 else -(v 2 * T.t 0)) r)) := by
    funext i
    change Fl.val (se2AdjointFl T v w r i.val) = Fl.val (Ops.addV 2 _ _ _ i.val)
    rw [Ops.addV, Ops.pairwiseV, forN_vecset, if_pos i.2]
    fin_cases i
    · simp [se2AdjointFl, Vec.set]
    · have e5 : se2AdjointFl T v w r 1 = soAct 2 T.R v w 1 - v 2 * T.t 0 := by simp [se2AdjointFl, Vec.set]
      change Fl.val (se2AdjointFl T v w r 1) = ρ.rnd ((soAct 2 T.R v w 1).val + -(v 2 * T.t 0).val)
      rw [e5, ← sub_eq_add_neg]; rfl
  rw [← e1] at k2
  have e2 : (![se2Adjoint ⟨Q, asV 2 (rvec T.t)⟩ (asV 3 (rvec v)) 0, se2Adjoint ⟨Q, asV 2 (rvec T.t)⟩ (asV 3 (rvec v)) 1] : V 2) =
      Q.mulVec (asV 2 (rvec v)) + (v 2).val • ![asV 2 (rvec T.t) 1, -asV 2 (rvec T.t) 0] := by
    have e3 : (![asV 3 (rvec v) 0, asV 3 (rvec v) 1] : V 2) = asV 2 (rvec v) := by funext i; fin_cases i <;> rfl
    unfold se2Adjoint
    rw [e3]
    funext i
    fin_cases i
    · rfl
    · change Q.mulVec (asV 2 (rvec v)) 1 - (v 2).val * (T.t 0).val = Q.mulVec (asV 2 (rvec v)) 1 + (v 2).val * -(T.t 0).val
      ring
  rw [e2, mul_comm (eucl (asV 2 (rvec T.t)))]
  have c0 : eucl ((v 2).val • (![asV 2 (rvec T.t) 1, -asV 2 (rvec T.t) 0] : V 2)) = |(v 2).val| * eucl (asV 2 (rvec T.t)) := by
    rw [eucl_smul']
    congr 1
    simp [eucl, Fin.sum_univ_two, add_comm]
  have c1 : eucl (asV 2 (rvec (fun i => if i = 0 then v 2 * T.t 1 else -(v 2 * T.t 0))) -
      (v 2).val • (![asV 2 (rvec T.t) 1, -asV 2 (rvec T.t) 0] : V 2)) ≤ ρ.u * (|(v 2).val| * eucl (asV 2 (rvec T.t))) := by
    rw [← c0, ← eucl_smul _ u0]
    refine eucl_mono fun i => ?_
    rw [abs_mul, abs_of_nonneg u0]
    fin_cases i
    · exact ρ.err ((v 2).val * (T.t 1).val)
    · have := ρ.err ((v 2).val * (T.t 0).val)
      change |-ρ.rnd ((v 2).val * (T.t 0).val) - (v 2).val * -(T.t 0).val| ≤ ρ.u * |(v 2).val * -(T.t 0).val|
      rw [mul_neg, abs_neg, ← abs_neg]
      convert this using 2
      ring
  generalize asV 2 (rvec (se2AdjointFl T v w r)) = z at *
  generalize asV 2 (rvec (fun i => if i = 0 then v 2 * T.t 1 else -(v 2 * T.t 0))) = c at *
  generalize (v 2).val • (![asV 2 (rvec T.t) 1, -asV 2 (rvec T.t) 0] : V 2) = d at *
  generalize asV 2 (rvec (soAct 2 T.R v w)) = x at *
  have q1 : eucl (Q.mulVec (asV 2 (rvec v))) = _ := eucl_orth hQ.orth' _
  generalize asV 2 (rvec v) = p at *
  generalize eucl (asV 2 (rvec T.t)) = t at *
  have hp := eucl_nonneg p
  have hd := eucl_nonneg d
  have d2 : eucl ((x + c) - (Q.mulVec p + d)) ≤ (e + 5.25 * ρ.u) * eucl p + ρ.u * (|(v 2).val| * t) := by
    have e3 : (x + c) - (Q.mulVec p + d) = (x - Q.mulVec p) + (c - d) := by abel
    rw [e3]
    exact (eucl_add _ _).trans (add_le_add k1 c1)
  have d3 := eucl_le_of _ _ d2
  have d4 := eucl_add (Q.mulVec p) d
  have e3 : z - (Q.mulVec p + d) = (z - (x + c)) + ((x + c) - (Q.mulVec p + d)) := by abel
  rw [e3]
  have d5 := eucl_add (z - (x + c)) ((x + c) - (Q.mulVec p + d))
  rw [c0] at hd d4
  generalize |(v 2).val| * t = s at *
  have d6 : eucl (x + c) ≤ 1.0106 * eucl p + 1.0001 * s := by
    have m1 := mul_le_mul_of_nonneg_right he hp
    have m2 := mul_le_mul_of_nonneg_right hu hp
    have m4 := mul_le_mul_of_nonneg_right hu hd
    rw [q1] at d4
    linarith
  have d7 := mul_le_mul_of_nonneg_left d6 u0
  have up := mul_nonneg u0 hp
  have us := mul_nonneg u0 hd
  linarith

/-- without rounding errors a computed rotated vector is the matrix-vector product -/
theorem act_exact (a : Mat (Fl Rounding.exact)) (v w : Vec (Fl Rounding.exact)) :
    asV n (rvec (soAct n a v w)) = (asM n n (rmat a)).mulVec (asV n (rvec v)) := by
  have hu : Rounding.exact.u = 0 := rfl
  have := soAct_err (ρ := Rounding.exact) (n := n) (by rw [hu]; simp) a v w
  rw [hu, gam, mul_zero, zero_div, zero_mul] at this
  have h0 := le_antisymm this (eucl_nonneg _)
  have h1 := eucl_sum (asV n (rvec (soAct n a v w)) - (asM n n (rmat a)).mulVec (asV n (rvec v)))
  rw [h0] at h1
  have h2 := (sum_eq_zero_iff_of_nonneg (fun i _ => sq_nonneg _)).1 (by rw [← h1]; norm_num : ∑ i, (asV n (rvec (soAct n a v w)) -
    (asM n n (rmat a)).mulVec (asV n (rvec v))) i ^ 2 = 0)
  funext i
  have := pow_eq_zero_iff (two_ne_zero) |>.1 (h2 i (mem_univ i))
  rw [Pi.sub_apply] at this
  linarith

/-- **C92** in exact arithmetic these models are those of `Model/SE.lean` -/
theorem c92_exact (T : Pose Rounding.exact) (v w1 w2 w3 : Vec (Fl Rounding.exact)) :
    asM n n (rmat (seInv n T w1).R) = (SE.inv ⟨asM n n (rmat T.R), asV n (rvec T.t)⟩).R ∧
    asV n (rvec (seInv n T w1).t) = (SE.inv ⟨asM n n (rmat T.R), asV n (rvec T.t)⟩).t ∧
    asV 6 (rvec (se3AdjointFl T v w1 w2 w3)) = se3Adjoint ⟨asM 3 3 (rmat T.R), asV 3 (rvec T.t)⟩ (asV 6 (rvec v)) ∧
    asV 6 (rvec (se3TrInvAdjointFl T v w1 w2 w3)) = se3TrInvAdjoint ⟨asM 3 3 (rmat T.R), asV 3 (rvec T.t)⟩ (asV 6 (rvec v)) ∧
    asV 3 (rvec (se2AdjointFl T v w1 w2)) = se2Adjoint ⟨asM 2 2 (rmat T.R), asV 2 (rvec T.t)⟩ (asV 3 (rvec v)) := by
  obtain ⟨s1, s2⟩ := slices v
  have a1 := act_exact (n := 3) T.R v w2
  have a2 := act_exact (n := 3) T.R (fun i => v (3 + i)) w1
  refine ⟨rfl, ?_, ?_, ?_, ?_⟩
  · have e1 : asV n (rvec (seInv n T w1).t) = -asV n (rvec (soAct n (soInv T.R) T.t w1)) := rfl
    rw [e1, act_exact]; rfl
  · have c := cross_exact T.t (soAct 3 T.R (fun i => v (3 + i)) w1) w3
    unfold se3Adjoint
    dsimp only
    rw [s1, s2, ← a1, ← a2, ← c]
    funext i; fin_cases i <;> rfl
  · have c := cross_exact T.t (soAct 3 T.R v w2) w3
    unfold se3TrInvAdjoint
    dsimp only
    rw [s1, s2, ← a1, ← a2, ← c]
    funext i; fin_cases i <;> rfl
  · have e3 : (![asV 3 (rvec v) 0, asV 3 (rvec v) 1] : V 2) = asV 2 (rvec v) := by funext i; fin_cases i <;> rfl
    unfold se2Adjoint
    dsimp only
    rw [e3, ← act_exact T.R v w1]
    funext i
    fin_cases i
    · change Fl.val (se2AdjointFl T v w1 w2 0) = _
      simp only [se2AdjointFl, Vec.set]; rfl
    · change Fl.val (se2AdjointFl T v w1 w2 1) = _
      simp only [se2AdjointFl, Vec.set]; rfl
    · change Fl.val (se2AdjointFl T v w1 w2 2) = _
      simp only [se2AdjointFl, Vec.set]; rfl

/-- **C92** in double precision, for `T = SE3<double>::exp(mu)` with a turn of at most `3.15` radians and an accurate C library,
`T.inverse() * (T * x)` returns `x` to within `10⁻¹³‖x‖ + 1.3·10⁻¹⁵‖t‖`; the hypotheses of `c92_round_trip` are met by every such pose -/
theorem c92_double (L : Libm Rounding.double) (hs : ∀ x, |(L.sin x).val - Real.sin x.val| ≤ 1 / 2 ^ 53)
    (hc : ∀ x, |(L.cos x).val - Real.cos x.val| ≤ 1 / 2 ^ 53) (mu x w w1 w2 w3 w4 s s' : Vec (Fl Rounding.double))
    (V : Mat (Fl Rounding.double)) (hw : eucl (asV 3 (rvec fun j => mu (3 + j))) ≤ 3.15) (T : Pose Rounding.double)
    (hT : T = ⟨(se3ExpFl L mu V s s').1, (se3ExpFl L mu V s s').2⟩) :
    eucl (asV 3 (rvec (seAct 3 (seInv 3 T w) (seAct 3 T x w1 w2) w3 w4)) - asV 3 (rvec x)) ≤
      1 / 10 ^ 13 * eucl (asV 3 (rvec x)) + 1.3e-15 * eucl (asV 3 (rvec T.t)) := by
  have hu : Rounding.double.u = 1 / 2 ^ 53 := Rounding.double_u
  have hu' : Rounding.double.u ≤ 1 / 10000 := by rw [hu]; norm_num
  have hf := frob_le_of_entries (asM 3 3 (rmat T.R) - (NormedSpace.exp (skew (asV 3 (rvec fun j => mu (3 + j)))) : M 3)) (58.5 / 2 ^ 53)
    (by norm_num) (fun a c => by
      have := c89_rotation hu' L _ hs hc mu V s s' a c
      rw [(se3_exact _ _ rfl a c).1, hi_rvec] at this
      rw [hT]
      refine le_trans this ?_
      rw [hu]
      norm_num at hw ⊢
      linarith)
  refine (c92_round_trip le_rfl hu' T x w w1 w2 w3 w4 (exp_skew_rot _) (by norm_num) hf).trans ?_
  rw [hu]
  refine add_le_add (mul_le_mul_of_nonneg_right (by norm_num) (eucl_nonneg _)) (mul_le_mul_of_nonneg_right (by norm_num) (eucl_nonneg _))

end TooN.FlRot
