import Verif.Props.FloatRot
import Verif.Proof.FloatCoerce
import Verif.Model.SO
import Mathlib.LinearAlgebra.CrossProduct
/-!
# C69 (continued): re-orthonormalising a drifted rotation
-/
set_option linter.unusedSectionVars false
namespace TooN.FlRot
open Finset TooN.Lie
open scoped Matrix
variable {ρ : Rounding}

theorem eucl_cross (a b : Fin 3 → ℝ) : eucl (a ⨯₃ b) ≤ eucl a * eucl b := by
  have h : eucl (a ⨯₃ b) ^ 2 ≤ (eucl a * eucl b) ^ 2 := by
    rw [mul_pow, eucl_sq, eucl_sq, eucl_sq, cross_dot_cross, dotProduct_comm b a]
    nlinarith [sq_nonneg (a ⬝ᵥ b)]
  exact (pow_le_pow_iff_left₀ (eucl_nonneg _) (mul_nonneg (eucl_nonneg _) (eucl_nonneg _)) two_ne_zero).1 h

theorem abs_triple (a b c : Fin 3 → ℝ) {x y z : ℝ} (ha : eucl a ≤ x) (hb : eucl b ≤ y) (hc : eucl c ≤ z) :
    |a ⨯₃ b ⬝ᵥ c| ≤ x * y * z := by
  have hx := le_trans (eucl_nonneg _) ha
  have hy := le_trans (eucl_nonneg _) hb
  refine le_trans (abs_dot_le _ _) (mul_le_mul (le_trans (eucl_cross a b) ?_) hc (eucl_nonneg _) (by positivity))
  exact mul_le_mul ha hb (eucl_nonneg _) hx

theorem abs_le_eucl {n : ℕ} (v : Fin n → ℝ) (i : Fin n) : |v i| ≤ eucl v := by
  apply Real.le_sqrt_of_sq_le
  rw [sq_abs]
  exact single_le_sum (f := fun i => v i ^ 2) (fun j _ => sq_nonneg _) (mem_univ i)

/-- the `assert` at the end of `coerce` -/
theorem assert_pos (hu : ρ.u ≤ 1 / 10000) (r0 r1 r2 w : Vec (Fl ρ)) (q0 q1 q2 : Fin 3 → ℝ) (δ0 δ1 δ2 : ℝ)
    (hq0 : eucl q0 = 1) (hq1 : eucl q1 = 1) (hq : q0 ⨯₃ q1 ⬝ᵥ q2 = 1)
    (h0 : Row ρ.u (asV 3 (rvec r0)) q0 δ0) (h1 : Row ρ.u (asV 3 (rvec r1)) q1 δ1) (h2 : Row ρ.u (asV 3 (rvec r2)) q2 δ2)
    (hδ : δ0 * (103 / 100) + δ1 * (101 / 100) + δ2 ≤ 9 / 10) :
    (0 : Fl ρ) < Ops.dot 3 (Ops.cross r0 r1 w) r2 := by
  have hu0 := ρ.u_nonneg
  obtain ⟨c0, c1, c2⟩ := c61_cross (ρ := ρ) (by linarith) r0 r1 w
  have hd := c61_dot (ρ := ρ) 3 (by push_cast; linarith) (Ops.cross r0 r1 w) r2
  have g2 := gam_le hu0 hu 2 (by norm_num)
  have g3 := gam_le hu0 hu 3 (by norm_num)
  have gn2 := gam_nonneg hu0 ρ.u_lt_one (n := 2) (by push_cast; linarith)
  have gn3 := gam_nonneg hu0 ρ.u_lt_one (n := 3) (by push_cast; linarith)
  have e : ∀ (r : Vec (Fl ρ)) (q : Fin 3 → ℝ) (δ : ℝ), Row ρ.u (asV 3 (rvec r)) q δ → ∀ i : Fin 3, |(r i).val| ≤ 101 / 100 :=
    fun r q δ h i => le_trans (abs_le_eucl (asV 3 (rvec r)) i) h.le
  have a0 := e r0 q0 δ0 h0 0
  have a1 := e r0 q0 δ0 h0 1
  have a2 := e r0 q0 δ0 h0 2
  have b0 := e r1 q1 δ1 h1 0
  have b1 := e r1 q1 δ1 h1 1
  have b2 := e r1 q1 δ1 h1 2
  have d0 := e r2 q2 δ2 h2 0
  have d1 := e r2 q2 δ2 h2 1
  have d2 := e r2 q2 δ2 h2 2
  simp only [Fin.val_zero, Fin.val_one, Fin.val_two] at a0 a1 a2 b0 b1 b2 d0 d1 d2
  -- the exact triple product
  have ht : 1 / 10 ≤ asV 3 (rvec r0) ⨯₃ asV 3 (rvec r1) ⬝ᵥ asV 3 (rvec r2) := by
    have hδ0 := le_trans (eucl_nonneg _) h0.near
    have hδ1 := le_trans (eucl_nonneg _) h1.near
    have t0 := abs_triple (asV 3 (rvec r0) - q0) (asV 3 (rvec r1)) (asV 3 (rvec r2)) h0.near h1.le h2.le
    have t1 := abs_triple q0 (asV 3 (rvec r1) - q1) (asV 3 (rvec r2)) hq0.le h1.near h2.le
    have t2 := abs_triple q0 q1 (asV 3 (rvec r2) - q2) hq0.le hq1.le h2.near
    generalize asV 3 (rvec r0) = R0 at *
    generalize asV 3 (rvec r1) = R1 at *
    generalize asV 3 (rvec r2) = R2 at *
    have ee : R0 ⨯₃ R1 ⬝ᵥ R2 = q0 ⨯₃ q1 ⬝ᵥ q2 + (R0 - q0) ⨯₃ R1 ⬝ᵥ R2 + q0 ⨯₃ (R1 - q1) ⬝ᵥ R2 + q0 ⨯₃ q1 ⬝ᵥ (R2 - q2) := by
      simp only [map_sub, LinearMap.sub_apply, sub_dotProduct, dotProduct_sub]; ring
    rw [ee, hq]
    have t0 := (abs_le.1 t0).1
    have t1 := (abs_le.1 t1).1
    have t2 := (abs_le.1 t2).1
    linarith
  have et : asV 3 (rvec r0) ⨯₃ asV 3 (rvec r1) ⬝ᵥ asV 3 (rvec r2) =
      ((r0 1).val * (r1 2).val - (r0 2).val * (r1 1).val) * (r2 0).val +
      ((r0 2).val * (r1 0).val - (r0 0).val * (r1 2).val) * (r2 1).val +
      ((r0 0).val * (r1 1).val - (r0 1).val * (r1 0).val) * (r2 2).val := by
    rw [cross_apply, Matrix.vec3_dotProduct]; rfl
  rw [et] at ht
  have pr : ∀ x y : ℝ, |x| ≤ 101 / 100 → |y| ≤ 101 / 100 → |x * y| ≤ 103 / 100 := fun x y hx hy => by
    rw [abs_mul]; have := mul_le_mul hx hy (abs_nonneg _) (by norm_num); linarith
  have cb : ∀ c x y z t : ℝ, |c - (x * y - z * t)| ≤ gam ρ.u 2 * (|x * y| + |z * t|) → |x| ≤ 101 / 100 → |y| ≤ 101 / 100 →
      |z| ≤ 101 / 100 → |t| ≤ 101 / 100 → |c - (x * y - z * t)| ≤ 5 * ρ.u ∧ |c| ≤ 3 := by
    intro c x y z t h hx hy hz ht
    have p1 := pr x y hx hy
    have p2 := pr z t hz ht
    have : gam ρ.u 2 * (|x * y| + |z * t|) ≤ 201 / 100 * ρ.u * (206 / 100) := by
      refine mul_le_mul (by push_cast at g2; linarith) (by linarith) (by positivity) (by positivity)
    have k : |c - (x * y - z * t)| ≤ 5 * ρ.u := by linarith
    refine ⟨k, ?_⟩
    have p1 := abs_le.1 p1
    have p2 := abs_le.1 p2
    have k := abs_le.1 k
    rw [abs_le]; constructor <;> linarith
  obtain ⟨f0, n0⟩ := cb _ _ _ _ _ c0 a1 b2 a2 b1
  obtain ⟨f1, n1⟩ := cb _ _ _ _ _ c1 a2 b0 a0 b2
  obtain ⟨f2, n2⟩ := cb _ _ _ _ _ c2 a0 b1 a1 b0
  rw [Fl.lt_def, Fl.val_zero]
  simp only [sum_range_succ, range_zero, sum_empty, zero_add] at hd
  generalize (Ops.cross r0 r1 w 0).val = x0 at *
  generalize (Ops.cross r0 r1 w 1).val = x1 at *
  generalize (Ops.cross r0 r1 w 2).val = x2 at *
  generalize (Ops.dot 3 (Ops.cross r0 r1 w) r2).val = D at *
  have m : ∀ x y : ℝ, |x| ≤ 3 → |y| ≤ 101 / 100 → |x * y| ≤ 303 / 100 := fun x y hx hy => by
    rw [abs_mul]; have := mul_le_mul hx hy (abs_nonneg _) (by norm_num); linarith
  have m0 := m _ _ n0 d0
  have m1 := m _ _ n1 d1
  have m2 := m _ _ n2 d2
  have hd2 : |D - (x0 * (r2 0).val + x1 * (r2 1).val + x2 * (r2 2).val)| ≤ 301 / 100 * ρ.u * (909 / 100) := by
    refine le_trans hd (mul_le_mul (by push_cast at g3; linarith) (by linarith) (by positivity) (by positivity))
  have s : ∀ x y z : ℝ, |x - y| ≤ 5 * ρ.u → |z| ≤ 101 / 100 → |(x - y) * z| ≤ 6 * ρ.u := fun x y z hx hz => by
    rw [abs_mul]; have := mul_le_mul hx hz (abs_nonneg _) (by positivity); linarith
  have s0 := (abs_le.1 (s _ _ _ f0 d0)).1
  have s1 := (abs_le.1 (s _ _ _ f1 d1)).1
  have s2 := (abs_le.1 (s _ _ _ f2 d2)).1
  have hd3 := (abs_le.1 hd2).1
  nlinarith

/-- rows of an orthogonal matrix -/
theorem rows_orth {n : ℕ} {Q : Matrix (Fin n) (Fin n) ℝ} (h : Q * Qᵀ = 1) (i j : Fin n) :
    Q i ⬝ᵥ Q j = if i = j then 1 else 0 := by
  have := congrFun (congrFun h i) j
  rwa [Matrix.mul_apply', Matrix.one_apply] at this

theorem rows_unit {n : ℕ} {Q : Matrix (Fin n) (Fin n) ℝ} (h : Q * Qᵀ = 1) (i : Fin n) : eucl (Q i) = 1 := by
  have h1 : eucl (Q i) ^ 2 = 1 := by rw [eucl_sq, rows_orth h, if_pos rfl]
  have h0 := eucl_nonneg (Q i)
  nlinarith

theorem row_le_frob {m n : ℕ} (A : Matrix (Fin m) (Fin n) ℝ) (i : Fin m) : eucl (A i) ≤ frob A :=
  Real.sqrt_le_sqrt (single_le_sum (f := fun i => ∑ j, A i j ^ 2) (fun i _ => sum_nonneg fun j _ => sq_nonneg _) (mem_univ i))

theorem frob_le_rows {m n : ℕ} (A : Matrix (Fin m) (Fin n) ℝ) : frob A ≤ ∑ i, eucl (A i) := by
  have h0 : 0 ≤ ∑ i, eucl (A i) := sum_nonneg fun i _ => eucl_nonneg _
  refine Real.sqrt_le_iff.2 ⟨h0, ?_⟩
  have : ∀ i, ∑ j, A i j ^ 2 = eucl (A i) ^ 2 := fun i =>
    (Real.sq_sqrt (sum_nonneg fun j _ => sq_nonneg _)).symm
  simp only [this]
  exact sum_sq_le_sq_sum_of_nonneg fun i _ => eucl_nonneg _

/-- `coerce` computes row by row -/
theorem coerceFl_eq (m : Mat (Fl ρ)) (w : Vec (Fl ρ)) {r0 r1 r2 : Vec (Fl ρ)} (e0 : unitFl 3 (m 0) w = some r0)
    (e1 : unitFl 3 (reject 3 r0 (m 1) w) w = some r1)
    (e2 : unitFl 3 (reject 3 r1 (reject 3 r0 (m 2) w) w) w = some r2)
    (hpos : (0 : Fl ρ) < Ops.dot 3 (Ops.cross r0 r1 w) r2) :
    coerceFl m w = some (.ok (setRow (setRow (setRow m 0 r0) 1 r1) 2 r2)) := by
  have a00 : ∀ (m : Mat (Fl ρ)) (k : ℕ) v, setRow m k v k = v := fun m k v => if_pos rfl
  have a01 : ∀ (m : Mat (Fl ρ)) (k j : ℕ) v, j ≠ k → setRow m k v j = m j := fun m k j v h => if_neg h
  have a02 : ∀ (m : Mat (Fl ρ)) (k : ℕ) v v', setRow (setRow m k v) k v' = setRow m k v' := fun m k v v' => by
    funext r; unfold setRow; split_ifs <;> rfl
  unfold coerceFl
  rw [e0, Option.bind_some]
  dsimp only
  rw [a00, a01 _ 0 1 _ (by norm_num), a00, e1, Option.bind_some]
  have b0 : ∀ (m : Mat (Fl ρ)) v, setRow m 1 v 0 = m 0 := fun m v => rfl
  have b1 : ∀ (m : Mat (Fl ρ)) v, setRow m 2 v 0 = m 0 := fun m v => rfl
  have b2 : ∀ (m : Mat (Fl ρ)) v, setRow m 2 v 1 = m 1 := fun m v => rfl
  have b3 : ∀ (m : Mat (Fl ρ)) v, setRow m 0 v 2 = m 2 := fun m v => rfl
  have b4 : ∀ (m : Mat (Fl ρ)) v, setRow m 1 v 2 = m 2 := fun m v => rfl
  simp only [a00, a02, b0, b1, b2, b3, b4]
  rw [e2, Option.map_some, if_pos hpos]

/-- orthonormality of a matrix from that of its rows -/
theorem rows_defect (m : Mat (Fl ρ)) (r0 r1 r2 : Vec (Fl ρ)) (c : ℝ)
    (l0 : |asV 3 (rvec r0) ⬝ᵥ asV 3 (rvec r0) - 1| ≤ c) (l1 : |asV 3 (rvec r1) ⬝ᵥ asV 3 (rvec r1) - 1| ≤ c)
    (l2 : |asV 3 (rvec r2) ⬝ᵥ asV 3 (rvec r2) - 1| ≤ c) (d01 : |asV 3 (rvec r0) ⬝ᵥ asV 3 (rvec r1)| ≤ c)
    (d02 : |asV 3 (rvec r0) ⬝ᵥ asV 3 (rvec r2)| ≤ c) (d12 : |asV 3 (rvec r1) ⬝ᵥ asV 3 (rvec r2)| ≤ c)
    (i j : ℕ) (hi : i < 3) (hj : j < 3) :
    |∑ k ∈ range 3, (setRow (setRow (setRow m 0 r0) 1 r1) 2 r2 i k).val * (setRow (setRow (setRow m 0 r0) 1 r1) 2 r2 j k).val -
      if i = j then 1 else 0| ≤ c := by
  have c0 : setRow (setRow (setRow m 0 r0) 1 r1) 2 r2 0 = r0 := rfl
  have c1 : setRow (setRow (setRow m 0 r0) 1 r1) 2 r2 1 = r1 := rfl
  have c2 : setRow (setRow (setRow m 0 r0) 1 r1) 2 r2 2 = r2 := rfl
  generalize setRow (setRow (setRow m 0 r0) 1 r1) 2 r2 = C at *
  subst c0 c1 c2
  have dd : ∀ a b : Vec (Fl ρ), ∑ k ∈ range 3, (a k).val * (b k).val = asV 3 (rvec a) ⬝ᵥ asV 3 (rvec b) := by
    intro a b; rw [Finset.sum_range]; rfl
  rw [dd]
  have hi' : i = 0 ∨ i = 1 ∨ i = 2 := by omega
  have hj' : j = 0 ∨ j = 1 ∨ j = 2 := by omega
  rcases hi' with rfl | rfl | rfl <;> rcases hj' with rfl | rfl | rfl
  · rw [if_pos rfl]; exact l0
  · rw [if_neg (by norm_num), sub_zero]; exact d01
  · rw [if_neg (by norm_num), sub_zero]; exact d02
  · rw [if_neg (by norm_num), sub_zero, dotProduct_comm]; exact d01
  · rw [if_pos rfl]; exact l1
  · rw [if_neg (by norm_num), sub_zero]; exact d12
  · rw [if_neg (by norm_num), sub_zero, dotProduct_comm]; exact d02
  · rw [if_neg (by norm_num), sub_zero, dotProduct_comm]; exact d12
  · rw [if_pos rfl]; exact l2

set_option maxHeartbeats 1000000 in
/-- **C69** `coerce()` repairs drift: on a stored matrix within `ε ≤ 1/100` of a rotation, `SO3::coerce` divides by no zero, passes
its assertion, and leaves a matrix whose rows are orthonormal up to `69u` — however large `ε` was — and which is within
`56ε + 247u` of the rotation -/
theorem c69_coerce (hu : ρ.u ≤ 1 / 10000) (m : Mat (Fl ρ)) (w : Vec (Fl ρ)) (Q : Matrix (Fin 3) (Fin 3) ℝ) (hQ : IsRot Q) (ε : ℝ)
    (hε : ε ≤ 1 / 100) (hm : frob (asM 3 3 (rmat m) - Q) ≤ ε) :
    ∃ C, coerceFl m w = some (.ok C) ∧
      (∀ i j, i < 3 → j < 3 → |∑ k ∈ range 3, (C i k).val * (C j k).val - if i = j then 1 else 0| ≤ 69 * ρ.u) ∧
      frob (asM 3 3 (rmat C) - Q) ≤ 56 * ε + 247 * ρ.u := by
  have h0 := ρ.u_nonneg
  have hε0 := le_trans (frob_nonneg _) hm
  have hrow : ∀ i : Fin 3, eucl (asV 3 (rvec (m i)) - Q i) ≤ ε := fun i =>
    le_trans (row_le_frob (asM 3 3 (rmat m) - Q) i) hm
  have hun := rows_unit hQ.orth
  have hor := rows_orth hQ.orth
  have hdet : Q 0 ⨯₃ Q 1 ⬝ᵥ Q 2 = 1 := by
    rw [dotProduct_comm, triple_product_permutation, triple_product_eq_det]
    rw [← hQ.det]; congr 1; ext i j; fin_cases i <;> rfl
  -- row 0
  obtain ⟨r0, e0, R0, -⟩ := row_of le_rfl hu (m 0) w (Q 0) (hun 0) ε (by linarith) (hrow 0)
  -- row 1
  obtain ⟨w1a, w1b, w1c, -⟩ := reject_of le_rfl hu r0 (m 1) w (Q 0) (Q 1) (hun 0) (hun 1) (hor 0 1) _ ε (by linarith) R0 (hrow 1)
  have w1d : eucl (asV 3 (rvec (reject 3 r0 (m 1) w)) - Q 1) ≤ 5 * ε + 18 * ρ.u := by nlinarith
  obtain ⟨r1, e1, R1, p1⟩ := row_of le_rfl hu (reject 3 r0 (m 1) w) w (Q 1) (hun 1) _ (by linarith) w1d
  have d01 : |asV 3 (rvec r0) ⬝ᵥ asV 3 (rvec r1)| ≤ 40 * ρ.u := by
    refine le_trans (p1 _ (28 * ρ.u) R0.le (by nlinarith)) ?_
    have : 28 * ρ.u / (1 - (5 * ε + 18 * ρ.u)) ≤ 32 * ρ.u := by
      rw [div_le_iff₀ (by linarith)]; nlinarith
    linarith
  -- row 2
  obtain ⟨w2a, w2b, w2c, -⟩ := reject_of le_rfl hu r0 (m 2) w (Q 0) (Q 2) (hun 0) (hun 2) (hor 0 2) _ ε (by linarith) R0 (hrow 2)
  have w2d : eucl (asV 3 (rvec (reject 3 r0 (m 2) w)) - Q 2) ≤ 5 * ε + 18 * ρ.u := by nlinarith
  obtain ⟨w3a, w3b, w3c, w3e⟩ := reject_of le_rfl hu r1 (reject 3 r0 (m 2) w) w (Q 1) (Q 2) (hun 1) (hun 2) (hor 1 2) _ _
    (by linarith) R1 w2d
  have w3e := w3e (asV 3 (rvec r0)) R0.le
  have hm1 : (2 * (5 * ε + 18 * ρ.u) + 7 * ρ.u) * (1 + (5 * ε + 18 * ρ.u)) + (5 * ε + 18 * ρ.u) ≤ 16 * ε + 65 * ρ.u := by
    nlinarith
  have w3d : eucl (asV 3 (rvec (reject 3 r1 (reject 3 r0 (m 2) w) w)) - Q 2) ≤ 22 * ε + 95 * ρ.u := by nlinarith
  obtain ⟨r2, e2, R2, p2⟩ := row_of le_rfl hu (reject 3 r1 (reject 3 r0 (m 2) w) w) w (Q 2) (hun 2) _ (by linarith) w3d
  have d12 : |asV 3 (rvec r1) ⬝ᵥ asV 3 (rvec r2)| ≤ 50 * ρ.u := by
    refine le_trans (p2 _ (29 * ρ.u) R1.le (by nlinarith)) ?_
    have : 29 * ρ.u / (1 - (22 * ε + 95 * ρ.u)) ≤ 40 * ρ.u := by
      rw [div_le_iff₀ (by linarith)]; nlinarith
    linarith
  have d02 : |asV 3 (rvec r0) ⬝ᵥ asV 3 (rvec r2)| ≤ 69 * ρ.u := by
    have k : |asV 3 (rvec r0) ⬝ᵥ asV 3 (rvec (reject 3 r1 (reject 3 r0 (m 2) w) w))| ≤ 47 * ρ.u := by
      have k1 := mul_le_mul hm1 d01 (abs_nonneg _) (by positivity)
      nlinarith
    refine le_trans (p2 _ _ R0.le k) ?_
    have : 47 * ρ.u / (1 - (22 * ε + 95 * ρ.u)) ≤ 61 * ρ.u := by
      rw [div_le_iff₀ (by linarith)]; nlinarith
    linarith
  have hpos := assert_pos hu r0 r1 r2 w (Q 0) (Q 1) (Q 2) _ _ _ (hun 0) (hun 1) hdet R0 R1 R2 (by linarith)
  refine ⟨setRow (setRow (setRow m 0 r0) 1 r1) 2 r2, ?_, ?_, ?_⟩
  · exact coerceFl_eq m w e0 e1 e2 hpos
  · exact rows_defect m r0 r1 r2 _ (by linarith [R0.len]) (by linarith [R1.len]) (by linarith [R2.len])
      (by linarith) d02 (by linarith)
  · refine le_trans (frob_le_rows _) ?_
    rw [Fin.sum_univ_three]
    have k0 := R0.near
    have k1 := R1.near
    have k2 := R2.near
    change eucl (asV 3 (rvec r0) - Q 0) + eucl (asV 3 (rvec r1) - Q 1) + eucl (asV 3 (rvec r2) - Q 2) ≤ _
    linarith

end TooN.FlRot
