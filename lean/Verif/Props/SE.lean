import Verif.Model.SE
import Verif.Proof.LieExp
import Verif.Props.SO2
import Verif.Props.SO3
/-!
# C37: rigid transformations are a group acting on points
-/
set_option linter.unusedSectionVars false
namespace TooN.Lie
open Matrix

variable {n : Nat}

/-- the homogeneous `(n+1)×(n+1)` matrix of a transformation -/
abbrev SE.mat (a : SE n) : Matrix (Fin (n + 1)) (Fin (n + 1)) ℝ := hom a.R a.t

/-- the default-constructed transformation -/
abbrev SE.id : SE n := ⟨1, 0⟩

theorem SE.mat_inj {a b : SE n} : a.mat = b.mat ↔ a = b := by
  rw [SE.mat, SE.mat, hom_inj, SE.ext_iff]

/-- **C37** the product of two transformations is the product of their homogeneous matrices -/
theorem c37_mul_is_matrix_product (a b : SE n) : (SE.mul a b).mat = a.mat * b.mat := by
  unfold SE.mul SE.mat; rw [hom_mul]

/-- **C37** multiplication is associative with the default-constructed transformation as unit -/
theorem c37_monoid (a b c : SE n) :
    SE.mul (SE.mul a b) c = SE.mul a (SE.mul b c) ∧ SE.mul SE.id a = a ∧ SE.mul a SE.id = a := by
  refine ⟨?_, ?_, ?_⟩ <;> rw [← SE.mat_inj] <;> simp only [c37_mul_is_matrix_product]
  · rw [Matrix.mul_assoc]
  · simp [SE.id, SE.mat, hom_one]
  · simp [SE.id, SE.mat, hom_one]

/-- **C37** `inverse()` is a two-sided inverse and its homogeneous matrix is the inverse matrix -/
theorem c37_inverse (a : SE n) (h : IsRot a.R) :
    SE.mul a a.inv = SE.id ∧ SE.mul a.inv a = SE.id ∧ a.inv.mat = a.mat⁻¹ := by
  have h1 : SE.mul a a.inv = SE.id := by
    unfold SE.mul SE.inv
    ext1
    · exact h.orth
    · simp only [mulVec_neg, mulVec_mulVec, h.orth, one_mulVec, add_neg_cancel]
  have h2 : SE.mul a.inv a = SE.id := by
    unfold SE.mul SE.inv
    ext1
    · exact h.orth'
    · simp only [neg_add_cancel]
  refine ⟨h1, h2, ?_⟩
  symm
  apply inv_eq_left_inv
  rw [← c37_mul_is_matrix_product, h2, SE.mat, hom_one]

/-- **C37** products and inverses of transformations with proper rotations have proper rotations -/
theorem c37_closed (a b : SE n) (ha : IsRot a.R) (hb : IsRot b.R) : IsRot (SE.mul a b).R ∧ IsRot a.inv.R := by
  refine ⟨⟨?_, ?_⟩, ⟨?_, ?_⟩⟩
  · simp only [SE.mul]
    rw [transpose_mul, Matrix.mul_assoc, ← Matrix.mul_assoc b.R, hb.orth, Matrix.one_mul, ha.orth]
  · simp only [SE.mul]; rw [det_mul, ha.det, hb.det, mul_one]
  · simp only [SE.inv]; rw [transpose_transpose, ha.orth']
  · simp only [SE.inv]; rw [det_transpose, ha.det]

/-- **C37** the action on points is a group action by isometries -/
theorem c37_action (a b : SE n) (x y : V n) (h : IsRot a.R) :
    (SE.mul a b).act x = a.act (b.act x) ∧ SE.id.act x = x ∧ a.inv.act (a.act x) = x ∧ a.act (a.inv.act x) = x ∧
    (a.act x - a.act y) ⬝ᵥ (a.act x - a.act y) = (x - y) ⬝ᵥ (x - y) := by
  have hm : ∀ a b : SE n, (SE.mul a b).act x = a.act (b.act x) := by
    intro a b
    simp only [SE.mul, SE.act, mulVec_add, mulVec_mulVec, add_assoc]
  have hi : SE.id.act x = x := by simp [SE.act]
  refine ⟨hm a b, hi, ?_, ?_, ?_⟩
  · rw [← hm, (c37_inverse a h).2.1, hi]
  · rw [← hm, (c37_inverse a h).1, hi]
  · simp only [SE.act, add_sub_add_left_eq_sub, ← mulVec_sub]
    rw [rot_dot h]

/-- **C37** acting on homogeneous vectors (columns and rows) and on matrices is multiplication with the homogeneous matrix -/
theorem c37_homogeneous {c : Nat} (a : SE n) (v : V (n + 1)) (m : Matrix (Fin (n + 1)) (Fin c) ℝ)
    (l : Matrix (Fin c) (Fin (n + 1)) ℝ) :
    a.actH v = a.mat.mulVec v ∧ SE.actT v a = a.mat.vecMul v ∧ a.actM m = a.mat * m ∧ SE.actMT l a = l * a.mat := by
  have h1 : ∀ v, a.actH v = a.mat.mulVec v := by
    intro v
    funext i
    refine Fin.lastCases ?_ (fun i => ?_) i <;>
      simp [SE.actH, SE.mat, aug, mulVec, dotProduct, Fin.sum_univ_castSucc, pos, mul_comm]
  have h2 : ∀ v, SE.actT v a = a.mat.vecMul v := by
    intro v
    funext i
    refine Fin.lastCases ?_ (fun i => ?_) i <;>
      simp [SE.actT, SE.mat, aug, vecMul, dotProduct, Fin.sum_univ_castSucc, pos, add_comm]
  refine ⟨h1 v, h2 v, ?_, ?_⟩
  · ext i j
    unfold SE.actM
    rw [h1]; rfl
  · ext i j
    unfold SE.actMT
    rw [h2]; rfl

/-- **C37** points are homogeneous vectors with last coordinate 1 and directions those with last coordinate 0 -/
theorem c37_homogeneous_points (a : SE n) (x : V n) :
    a.actH (Fin.snoc x 1) = Fin.snoc (a.act x) 1 ∧ a.actH (Fin.snoc x 0) = Fin.snoc (a.R.mulVec x) 0 := by
  have e : ∀ w : ℝ, pos (Fin.snoc x w : V (n + 1)) = x := by intro w; funext i; simp [pos]
  constructor
  · unfold SE.actH
    rw [e]
    simp [SE.act, add_comm]
  · unfold SE.actH
    rw [e]
    simp

/-- **C37** `a *= b` stores `a * b` and `a.left_multiply_by(b)` stores `b * a`, and neither changes another object, whether or
not `a` and `b` are the same object -/
theorem c37_mul_assign (h : Objs (SE 3)) (g : Objs (SE 2)) (i j : Nat) :
    se3MulEq h i j = h.put i (SE.mul (h i) (h j)) ∧ se3LeftMul h i j = h.put i (SE.mul (h j) (h i)) ∧
    se2MulEq g i j = g.put i (SE.mul (g i) (g j)) := by
  refine ⟨?_, ?_, rfl⟩
  · funext k
    by_cases hk : k = i
    · subst hk
      by_cases hj : j = k
      · subst hj; simp [se3MulEq, Objs.put, SE.mul]
      · simp [se3MulEq, Objs.put, SE.mul, hj]
    · simp [se3MulEq, Objs.put, hk]
  · funext k
    by_cases hk : k = i
    · subst hk
      by_cases hj : j = k
      · subst hj; simp [se3LeftMul, Objs.put, SE.mul]
      · simp [se3LeftMul, Objs.put, SE.mul, hj]
    · simp [se3LeftMul, Objs.put, hk]

/-- **C37** multiplying by a rotation from the left is multiplying by the transformation with that rotation and no translation -/
theorem c37_rotation_times (r : M n) (a : SE n) : soMulSE r a = SE.mul ⟨r, 0⟩ a := by
  simp [soMulSE, SE.mul]

/-- a quarter turn about z and a translation: the hypotheses of this file are met -/
example : IsRot (⟨!![0, -1, 0; 1, 0, 0; 0, 0, 1], ![1, 2, 3]⟩ : SE 3).R := by
  constructor
  · ext i j; fin_cases i <;> fin_cases j <;> simp [Matrix.mul_apply, Fin.sum_univ_three]
  · simp [det_fin_three]

end TooN.Lie
