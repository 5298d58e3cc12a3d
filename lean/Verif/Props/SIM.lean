import Verif.Model.SIM
import Verif.Props.SE2
import Verif.Props.Elim
/-!
# C40: similarity transformations
-/
set_option linter.unusedSectionVars false
namespace TooN.Lie
open Matrix

variable {n : Nat}

/-- the homogeneous matrix `[s R, t; 0, 1]` of a similarity transformation -/
abbrev SIM.mat (a : SIM n) : Matrix (Fin (n + 1)) (Fin (n + 1)) ℝ := hom (a.s • a.R) a.t

/-- **C40** the product of two transformations is the product of their homogeneous matrices, and the default-constructed one
has the identity matrix -/
theorem c40_mul_is_matrix_product (a b : SIM n) :
    (SIM.mul a b).mat = a.mat * b.mat ∧ (SIM.id : SIM n).mat = 1 := by
  constructor
  · unfold SIM.mul SIM.mat; rw [hom_mul, hom_inj]
    refine ⟨?_, ?_⟩
    · rw [Matrix.smul_mul, Matrix.mul_smul, smul_smul]
    · rw [mulVec_smul, smul_mulVec, add_comm]
  · simp [SIM.id, SIM.mat, hom_one]

/-- **C40** multiplication is associative with the default-constructed transformation as unit, and composes scales and
rotations -/
theorem c40_monoid (a b c : SIM n) (ha : IsRot a.R) (hb : IsRot b.R) :
    SIM.mul (SIM.mul a b) c = SIM.mul a (SIM.mul b c) ∧ SIM.mul SIM.id a = a ∧ SIM.mul a SIM.id = a ∧
    IsRot (SIM.mul a b).R ∧ (SIM.mul a b).s = a.s * b.s := by
  refine ⟨?_, ?_, ?_, (c37_closed ⟨a.R, a.t⟩ ⟨b.R, b.t⟩ ha hb).1, rfl⟩
  · rw [SIM.ext_iff]
    refine ⟨Matrix.mul_assoc _ _ _, ?_, mul_assoc _ _ _⟩
    simp only [SIM.mul, smul_add, mulVec_add, mulVec_smul, mulVec_mulVec, smul_smul, add_assoc]
  · simp [SIM.id, SIM.mul]
  · simp [SIM.id, SIM.mul]

/-- **C40** `inverse()` of a transformation with a rotation and nonzero scale is a two-sided inverse whose matrix is the
inverse matrix (SIM3 and SIM2) -/
theorem c40_inverse (a : SIM 3) (b : SIM 2) (ha : IsRot a.R) (hb : IsRot b.R) (hs : a.s ≠ 0) (hs' : b.s ≠ 0) :
    (∃ i, sim3Inv a = some i ∧ SIM.mul a i = SIM.id ∧ SIM.mul i a = SIM.id ∧ IsRot i.R ∧ i.mat = a.mat⁻¹) ∧
    (∃ i, sim2Inv b = some i ∧ SIM.mul b i = SIM.id ∧ SIM.mul i b = SIM.id ∧ IsRot i.R ∧ i.mat = b.mat⁻¹) := by
  have key : ∀ {n : Nat} (a : SIM n), IsRot a.R → a.s ≠ 0 → ∀ i : SIM n, i = ⟨a.Rᵀ, -((1 / a.s) • a.Rᵀ.mulVec a.t), 1 / a.s⟩ →
      SIM.mul a i = SIM.id ∧ SIM.mul i a = SIM.id ∧ IsRot i.R ∧ i.mat = a.mat⁻¹ := by
    intro n a ha hs i hi
    subst hi
    have h1 : SIM.mul a ⟨a.Rᵀ, -((1 / a.s) • a.Rᵀ.mulVec a.t), 1 / a.s⟩ = SIM.id := by
      unfold SIM.mul SIM.id
      ext1
      · exact ha.orth
      · simp only [smul_neg, mulVec_neg, mulVec_smul, mulVec_mulVec, ha.orth, one_mulVec, smul_smul]
        rw [mul_one_div_cancel hs, one_smul, add_neg_cancel]
      · exact mul_one_div_cancel hs
    have h2 : SIM.mul ⟨a.Rᵀ, -((1 / a.s) • a.Rᵀ.mulVec a.t), 1 / a.s⟩ a = SIM.id := by
      unfold SIM.mul SIM.id
      ext1
      · exact ha.orth'
      · simp only [mulVec_smul, neg_add_cancel]
      · exact one_div_mul_cancel hs
    refine ⟨h1, h2, (c37_closed ⟨a.R, a.t⟩ ⟨a.R, a.t⟩ ha ha).2, ?_⟩
    symm
    apply inv_eq_left_inv
    rw [← (c40_mul_is_matrix_product _ _).1, h2, (c40_mul_is_matrix_product a a).2]
  constructor
  · refine ⟨_, ?_, key a ha hs _ rfl⟩
    unfold sim3Inv; simp only [if_neg hs]
  · refine ⟨_, ?_, key b hb hs' _ rfl⟩
    unfold sim2Inv; simp only [if_neg hs', mulVec_smul]

/-- **C40** the action on points is a group action that multiplies distances by the scale -/
theorem c40_action (a b : SIM n) (x y : V n) (h : IsRot a.R) :
    (SIM.mul a b).act x = a.act (b.act x) ∧ (SIM.id : SIM n).act x = x ∧
    (a.act x - a.act y) ⬝ᵥ (a.act x - a.act y) = a.s ^ 2 * ((x - y) ⬝ᵥ (x - y)) := by
  refine ⟨?_, by simp [SIM.act, SIM.id], ?_⟩
  · simp only [SIM.mul, SIM.act, mulVec_add, mulVec_mulVec, mulVec_smul, smul_add, smul_smul, add_assoc]
  · simp only [SIM.act, add_sub_add_left_eq_sub, ← mulVec_sub]
    rw [rot_dot h, ← smul_sub, smul_dotProduct, dotProduct_smul, smul_eq_mul, smul_eq_mul]; ring

/-- **C40** acting on homogeneous vectors (columns and rows) and on matrices is multiplication with the homogeneous matrix -/
theorem c40_homogeneous {c : Nat} (a : SIM n) (v : V (n + 1)) (m : Matrix (Fin (n + 1)) (Fin c) ℝ)
    (l : Matrix (Fin c) (Fin (n + 1)) ℝ) (x : V n) :
    a.actH v = a.mat.mulVec v ∧ SIM.actT v a = a.mat.vecMul v ∧ a.actM m = a.mat * m ∧ SIM.actMT l a = l * a.mat ∧
    a.actH (Fin.snoc x 1) = Fin.snoc (a.act x) 1 := by
  have e1 : ∀ v, a.actH v = (⟨a.s • a.R, a.t⟩ : SE n).actH v := by
    intro v; unfold SIM.actH SE.actH; rw [mulVec_smul, smul_mulVec]
  have e2 : ∀ v, SIM.actT v a = SE.actT v (⟨a.s • a.R, a.t⟩ : SE n) := by
    intro v; unfold SIM.actT SE.actT; rw [smul_vecMul, vecMul_smul]
  have h1 : ∀ v, a.actH v = a.mat.mulVec v := fun v => (e1 v).trans (c37_homogeneous (⟨a.s • a.R, a.t⟩ : SE n) v m l).1
  have h2 : ∀ v, SIM.actT v a = a.mat.vecMul v := fun v => (e2 v).trans (c37_homogeneous (⟨a.s • a.R, a.t⟩ : SE n) v m l).2.1
  refine ⟨h1 v, h2 v, ?_, ?_, ?_⟩
  · ext i j
    unfold SIM.actM
    rw [h1]; rfl
  · ext i j
    unfold SIM.actMT
    rw [h2]; rfl
  · rw [e1, (c37_homogeneous_points _ x).1]
    simp [SE.act, SIM.act, mulVec_smul, smul_mulVec]

/-- **C40** `a *= b` stores `a * b`, `a.left_multiply_by(b)` stores `b * a`, `a = Identity` stores the unit, and none changes
another object, whether or not `a` and `b` are the same object; `SIM3 * SE3` multiplies by the similarity of scale one -/
theorem c40_mul_assign (h : Objs (SIM 3)) (g : Objs (SIM 2)) (i j : Nat) (a : SIM 3) (b : SE 3) :
    sim3MulEq h i j = h.put i (SIM.mul (h i) (h j)) ∧ sim3LeftMul h i j = h.put i (SIM.mul (h j) (h i)) ∧
    sim2MulEq g i j = g.put i (SIM.mul (g i) (g j)) ∧ sim3AssignIdentity h i = h.put i ⟨1, 0, 1⟩ ∧
    (sim3MulSE a b).mat = a.mat * b.mat := by
  refine ⟨?_, ?_, rfl, rfl, ?_⟩
  · funext k
    by_cases hk : k = i
    · subst hk
      by_cases hj : j = k
      · subst hj; simp [sim3MulEq, Objs.put, SIM.mul]
      · simp [sim3MulEq, Objs.put, SIM.mul, hj]
    · simp [sim3MulEq, Objs.put, hk]
  · funext k
    by_cases hk : k = i
    · subst hk
      by_cases hj : j = k
      · subst hj; simp [sim3LeftMul, Objs.put, SIM.mul]
      · simp [sim3LeftMul, Objs.put, SIM.mul, hj]
    · simp [sim3LeftMul, Objs.put, hk]
  · simp only [sim3MulSE, SIM.mul, SIM.id, SIM.mat, SE.mat]
    rw [hom_mul, hom_inj]
    simp [mulVec_smul, smul_mulVec, add_comm]

theorem norm_row {m : M n} (h : IsRot m) (s : ℝ) (hs : 0 < s) (i : Fin n) :
    Real.sqrt ((fun j => m i j * s) ⬝ᵥ fun j => m i j * s) = s := by
  have h1 : m i ⬝ᵥ m i = 1 := by
    have := congrFun (congrFun h.orth i) i
    rw [Matrix.one_apply_eq] at this; exact this
  have : ((fun j => m i j * s) ⬝ᵥ fun j => m i j * s) = s * s := by
    have e : (fun j => m i j * s) = s • m i := by funext j; simp [mul_comm]
    rw [e, smul_dotProduct, dotProduct_smul, h1, smul_eq_mul, smul_eq_mul, mul_one]
  rw [this, Real.sqrt_mul_self hs.le]

/-- **C40** writing a SIM3 or SIM2 with positive scale to a stream and reading the numbers back gives the same
transformation -/
theorem c40_stream_round_trip (a : SIM 3) (b : SIM 2) (ha : IsRot a.R) (hb : IsRot b.R) (hs : 0 < a.s) (hs' : 0 < b.s) :
    sim3Read a.written = some (.ok a) ∧ sim2Read b.written = some b := by
  have hu : ∀ {n : Nat} (x y : V n) (s : ℝ), 0 < s → unitV x = some y → unitV (fun j => x j * s) = some y := by
    intro n x y s hs h
    have e : (fun j => x j * s) = s • x := by funext j; simp [mul_comm]
    have e2 : (s • x) ⬝ᵥ (s • x) = (s * s) * (x ⬝ᵥ x) := by
      rw [smul_dotProduct, dotProduct_smul, smul_eq_mul, smul_eq_mul, mul_assoc]
    unfold unitV at h ⊢
    rw [e, e2, Real.sqrt_mul (by positivity), Real.sqrt_mul_self hs.le]
    split_ifs at h with h0
    rw [if_neg (by positivity)]
    rw [← h]
    congr 1
    rw [smul_smul]
    congr 1
    field_simp
  have hrow : ∀ {n : Nat} {m : M n}, IsRot m → ∀ i, unitV (m i) = some (m i) := by
    intro n m h i
    have h1 : m i ⬝ᵥ m i = 1 := by
      have := congrFun (congrFun h.orth i) i
      rw [Matrix.one_apply_eq] at this; exact this
    exact unitV_of_unit h1
  have hdot : ∀ {n : Nat} {m : M n}, IsRot m → ∀ i j (s : ℝ), i ≠ j → m i ⬝ᵥ (fun k => m j k * s) = 0 := by
    intro n m h i j s hij
    have h1 : m i ⬝ᵥ m j = 0 := by
      have := congrFun (congrFun h.orth i) j
      rw [Matrix.one_apply_ne hij] at this; exact this
    have e : (fun k => m j k * s) = s • m j := by funext j; simp [mul_comm]
    rw [e, dotProduct_smul, h1, smul_zero]
  constructor
  · unfold sim3Read SIM.written
    simp only [norm_row ha a.s hs]
    have : coerce3 (fun i j => a.R i j * a.s) = some (.ok a.R) := by
      have hc := c36_coerce_rotation a.R ha
      unfold coerce3 at hc ⊢
      rw [hu _ _ _ hs (hrow ha 0)]
      rw [hrow ha 0] at hc
      simp only [Option.bind_some, hdot ha 0 1 _ (by decide), hdot ha 0 2 _ (by decide), zero_smul, sub_zero] at hc ⊢
      have h01 : a.R 0 ⬝ᵥ a.R 1 = 0 := by have := hdot ha 0 1 1 (by decide); simpa using this
      have h02 : a.R 0 ⬝ᵥ a.R 2 = 0 := by have := hdot ha 0 2 1 (by decide); simpa using this
      have h12 : a.R 1 ⬝ᵥ a.R 2 = 0 := by have := hdot ha 1 2 1 (by decide); simpa using this
      rw [hu _ _ _ hs (hrow ha 1)]
      simp only [h01, h02, zero_smul, sub_zero, hrow ha 1] at hc
      simp only [Option.bind_some, hdot ha 1 2 _ (by decide), h12, zero_smul, sub_zero, hrow ha 2] at hc ⊢
      rw [hu _ _ _ hs (hrow ha 2)]
      exact hc
    rw [this]
    simp only [Option.map_some]
    congr 2
    rw [SIM.ext_iff]
    exact ⟨rfl, rfl, by simp only; ring⟩
  · unfold sim2Read SIM.written
    simp only [norm_row hb b.s hs']
    have : coerce2 (fun i j => b.R i j * b.s) = some b.R := by
      have hc := c33_coerce_rotation b.R hb.orth
      unfold coerce2 at hc ⊢
      rw [hu _ _ _ hs' (hrow hb 0)]
      rw [hrow hb 0] at hc
      have h01 : b.R 0 ⬝ᵥ b.R 1 = 0 := by have := hdot hb 0 1 1 (by decide); simpa using this
      simp only [Option.bind_some, hdot hb 0 1 _ (by decide), h01, zero_smul, sub_zero, hrow hb 1] at hc ⊢
      rw [hu _ _ _ hs' (hrow hb 1)]
      exact hc
    rw [this]
    simp

example : IsRot (⟨!![0, -1; 1, 0], ![1, 2], 3⟩ : SIM 2).R ∧ (0:ℝ) < (⟨!![0, -1; 1, 0], ![1, 2], 3⟩ : SIM 2).s := by
  refine ⟨⟨?_, ?_⟩, by norm_num⟩
  · ext i j; fin_cases i <;> fin_cases j <;> simp [Matrix.mul_apply, Fin.sum_univ_two]
  · simp [det_fin_two]

end TooN.Lie
