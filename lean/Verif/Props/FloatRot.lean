import Verif.Proof.FloatRot
/-!
# C69: rotations and poses in floating point
-/
set_option linter.unusedSectionVars false
namespace TooN.FlRot
open Finset TooN.Lie
open scoped Matrix
variable {ρ : Rounding} {n : ℕ}

theorem chain_succ (R : ℕ → Matrix (Fin n) (Fin n) ℝ) (k : ℕ) : chain R (k + 1) = chain R k * R (k + 1) := by
  rw [chain, List.range_succ, List.map_append, List.prod_append]; simp [chain]

theorem chain_zero (R : ℕ → Matrix (Fin n) (Fin n) ℝ) : chain R 0 = R 0 := by simp [chain]

theorem chain_orth (R : ℕ → Matrix (Fin n) (Fin n) ℝ) (k : ℕ) (h : ∀ i, i ≤ k → R i * (R i)ᵀ = 1) :
    chain R k * (chain R k)ᵀ = 1 := by
  induction k with
  | zero => rw [chain_zero]; exact h 0 le_rfl
  | succ k ih =>
    rw [chain_succ, Matrix.transpose_mul, Matrix.mul_assoc, ← Matrix.mul_assoc (R (k + 1)), h _ le_rfl, Matrix.one_mul]
    exact ih fun i hi => h i (by omega)

/-- **C69** one product: if the stored matrices are within `e` and `ε` of rotations, the stored product is within `e'` of the
product of the rotations, where `1 + e' = (1 + e)(1 + ε)(1 + nγₙ)` -/
theorem c69_product (hn : n * ρ.u < 1) (a b w : Mat (Fl ρ)) (Q R : Matrix (Fin n) (Fin n) ℝ) (hQ : IsRot Q) (hR : IsRot R)
    (e ε : ℝ) (ha : frob (asM n n (rmat a) - Q) ≤ e) (hb : frob (asM n n (rmat b) - R) ≤ ε) :
    frob (asM n n (rmat (soMul n a b w)) - Q * R) ≤ (1 + e) * (1 + ε) * (1 + n * gam ρ.u n) - 1 := by
  have := soMul_drift hn a b w Q R hQ.orth hR.orth e ε ha hb
  linarith

/-- **C69** drift: `A[0] *= A[1]; A[0] *= A[2]; …` accumulates an error that grows at most geometrically with ratio
`(1 + ε)(1 + nγₙ)`, however long the chain -/
theorem c69_drift (hn : n * ρ.u < 1) (A W : ℕ → Mat (Fl ρ)) (R : ℕ → Matrix (Fin n) (Fin n) ℝ) (k : ℕ) (ε : ℝ)
    (hR : ∀ i, i ≤ k → IsRot (R i)) (hA : ∀ i, i ≤ k → frob (asM n n (rmat (A i)) - R i) ≤ ε) :
    frob (asM n n (rmat (soChain n A W k)) - chain R k) ≤ (1 + ε) * ((1 + ε) * (1 + n * gam ρ.u n)) ^ k - 1 := by
  induction k with
  | zero => rw [chain_zero]; have := hA 0 le_rfl; simp only [soChain, pow_zero, mul_one]; linarith
  | succ k ih =>
    have ih := ih (fun i hi => hR i (by omega)) (fun i hi => hA i (by omega))
    have := soMul_drift hn (soChain n A W k) (A (k + 1)) (W k) (chain R k) (R (k + 1))
      (chain_orth R k fun i hi => (hR i (by omega)).orth) (hR _ le_rfl).orth _ ε ih (hA _ le_rfl)
    rw [chain_succ]
    simp only [soChain]
    rw [pow_succ]
    linarith

/-- the geometric bound is linear as long as the drift is small -/
theorem geom_lin (x : ℝ) (hx : 0 ≤ x) (k : ℕ) (h : k * x < 1) : (1 + x) ^ k - 1 ≤ k * x / (1 - k * x) := by
  have hp : 0 < 1 - k * x := by linarith
  rw [le_div_iff₀ hp]
  have h1 : 1 - k * (x / (1 + x)) ≤ (1 - x / (1 + x)) ^ k := by
    have := one_add_mul_le_pow (a := -(x / (1 + x))) (by
      have : x / (1 + x) ≤ 1 := by rw [div_le_one (by linarith)]; linarith
      linarith) k
    rw [← sub_eq_add_neg] at this
    linarith
  have h2 : 1 - x / (1 + x) = (1 + x)⁻¹ := by field_simp; ring
  rw [h2, inv_pow] at h1
  have h3 : 1 - k * x ≤ 1 - k * (x / (1 + x)) := by
    have : x / (1 + x) ≤ x := div_le_self hx (by linarith)
    have := mul_le_mul_of_nonneg_left this (Nat.cast_nonneg (α := ℝ) k)
    linarith
  have h4 : 0 < (1 + x) ^ k := by positivity
  have h5 : (1 - k * x) * (1 + x) ^ k ≤ 1 := by
    have := mul_le_mul_of_nonneg_right (le_trans h3 h1) h4.le
    rwa [inv_mul_cancel₀ h4.ne'] at this
  nlinarith

/-- **C69** as long as it stays below 1, the drift is at most linear in the number of factors -/
theorem c69_drift_linear (hn : n * ρ.u < 1) (A W : ℕ → Mat (Fl ρ)) (R : ℕ → Matrix (Fin n) (Fin n) ℝ) (k : ℕ) (ε x : ℝ)
    (hR : ∀ i, i ≤ k → IsRot (R i)) (hA : ∀ i, i ≤ k → frob (asM n n (rmat (A i)) - R i) ≤ ε)
    (hx : (1 + ε) * (1 + n * gam ρ.u n) ≤ 1 + x) (hk : (k + 1) * x < 1) :
    frob (asM n n (rmat (soChain n A W k)) - chain R k) ≤ (k + 1) * x / (1 - (k + 1) * x) := by
  have hε : 0 ≤ ε := le_trans (frob_nonneg _) (hA 0 (by omega))
  have hg := gam_nonneg ρ.u_nonneg ρ.u_lt_one hn
  have hng : 0 ≤ n * gam ρ.u n := by positivity
  have hx0 : 0 ≤ x := by nlinarith
  refine le_trans (c69_drift hn A W R k ε hR hA) ?_
  have := geom_lin x hx0 (k + 1) (by push_cast; linarith)
  push_cast at this
  refine le_trans ?_ this
  have h1 : ((1 + ε) * (1 + n * gam ρ.u n)) ^ k ≤ (1 + x) ^ k := pow_le_pow_left₀ (by positivity) hx k
  have h2 : 1 + ε ≤ 1 + x := by nlinarith
  rw [pow_succ]
  have := mul_le_mul h2 h1 (by positivity) (by linarith)
  linarith

/-- **C69** orthonormality defect: rows and columns of a matrix within `e` of a rotation have lengths and angles within
`2e + e²` of those of an orthonormal system -/
theorem c69_defect (a : Mat (Fl ρ)) (Q : Matrix (Fin n) (Fin n) ℝ) (hQ : IsRot Q) (e : ℝ)
    (ha : frob (asM n n (rmat a) - Q) ≤ e) (i j : ℕ) (hi : i < n) (hj : j < n) :
    |∑ k ∈ range n, (a i k).val * (a j k).val - if i = j then 1 else 0| ≤ 2 * e + e ^ 2 ∧
    |∑ k ∈ range n, (a k i).val * (a k j).val - if i = j then 1 else 0| ≤ 2 * e + e ^ 2 := by
  have key : ∀ (A Q : Matrix (Fin n) (Fin n) ℝ), Q * Qᵀ = 1 → frob (A - Q) ≤ e → ∀ i j : Fin n,
      |(∑ k, A i k * A j k) - if i = j then 1 else 0| ≤ 2 * e + e ^ 2 := by
    intro A Q hQ hA i j
    have he := le_trans (frob_nonneg _) hA
    have e1 : A * Aᵀ - 1 = (A - Q) * Qᵀ + (Q * (A - Q)ᵀ + (A - Q) * (A - Q)ᵀ) := by
      rw [← hQ, Matrix.transpose_sub]; noncomm_ring
    have h1 := frob_add ((A - Q) * Qᵀ) (Q * (A - Q)ᵀ + (A - Q) * (A - Q)ᵀ)
    have h2 := frob_add (Q * (A - Q)ᵀ) ((A - Q) * (A - Q)ᵀ)
    have h3 := frob_mul (A - Q) (A - Q)ᵀ
    have hQ' := mul_eq_one_comm.1 hQ
    rw [← e1, frob_mul_orth _ (by rw [Matrix.transpose_transpose]; exact hQ')] at h1
    rw [frob_orth_mul _ hQ', frob_transpose] at h2
    rw [frob_transpose] at h3
    have h4 := abs_le_frob (A * Aᵀ - 1) i j
    rw [Matrix.sub_apply, Matrix.mul_apply, Matrix.one_apply] at h4
    simp only [Matrix.transpose_apply] at h4
    nlinarith [frob_nonneg (A - Q)]
  constructor
  · have := key (asM n n (rmat a)) Q hQ.orth ha ⟨i, hi⟩ ⟨j, hj⟩
    rw [Finset.sum_range]
    simpa [rmat, Fin.ext_iff] using this
  · have := key (asM n n (rmat a))ᵀ Qᵀ (by rw [Matrix.transpose_transpose]; exact hQ.orth')
      (by rw [← Matrix.transpose_sub, frob_transpose]; exact ha) ⟨i, hi⟩ ⟨j, hj⟩
    rw [Finset.sum_range]
    simpa [rmat, Fin.ext_iff] using this

/-- **C69** `inverse()` commits no rounding error: it is exactly as far from the inverse rotation as the matrix is from the rotation -/
theorem c69_inverse (a : Mat (Fl ρ)) (Q : Matrix (Fin n) (Fin n) ℝ) (hQ : IsRot Q) :
    frob (asM n n (rmat (soInv a)) - Q⁻¹) = frob (asM n n (rmat a) - Q) ∧ soInv (soInv a) = a := by
  refine ⟨?_, rfl⟩
  have : Q⁻¹ = Qᵀ := Matrix.inv_eq_right_inv hQ.orth
  rw [this, ← frob_transpose]
  rfl

/-- **C69** rotating a vector: the result is within `(e + γₙ(√n + e))‖v‖` of the rotated vector, so its length is preserved up to
that factor -/
theorem c69_act (hn : n * ρ.u < 1) (a : Mat (Fl ρ)) (v w : Vec (Fl ρ)) (Q : Matrix (Fin n) (Fin n) ℝ) (hQ : IsRot Q) (e : ℝ)
    (ha : frob (asM n n (rmat a) - Q) ≤ e) :
    eucl (asV n (rvec (soAct n a v w)) - Q.mulVec (asV n (rvec v))) ≤
      (e + gam ρ.u n * (Real.sqrt n + e)) * eucl (asV n (rvec v)) ∧
    |eucl (asV n (rvec (soAct n a v w))) - eucl (asV n (rvec v))| ≤
      (e + gam ρ.u n * (Real.sqrt n + e)) * eucl (asV n (rvec v)) := by
  have hg := gam_nonneg ρ.u_nonneg ρ.u_lt_one hn
  have hm := soAct_err hn a v w
  have fA : frob (asM n n (rmat a)) ≤ Real.sqrt n + e := by
    have := frob_add Q (asM n n (rmat a) - Q); rw [add_sub_cancel, frob_orth hQ.orth] at this; linarith
  have hv := eucl_nonneg (asV n (rvec v))
  have e1 : asV n (rvec (soAct n a v w)) - Q.mulVec (asV n (rvec v)) =
      (asV n (rvec (soAct n a v w)) - (asM n n (rmat a)).mulVec (asV n (rvec v))) +
        (asM n n (rmat a) - Q).mulVec (asV n (rvec v)) := by rw [Matrix.sub_mulVec]; abel
  have h1 : eucl (asV n (rvec (soAct n a v w)) - Q.mulVec (asV n (rvec v))) ≤
      (e + gam ρ.u n * (Real.sqrt n + e)) * eucl (asV n (rvec v)) := by
    rw [e1]
    refine le_trans (eucl_add _ _) ?_
    have h2 := eucl_mulVec (asM n n (rmat a) - Q) (asV n (rvec v))
    have h3 := mul_le_mul_of_nonneg_right ha hv
    have h4 := mul_le_mul_of_nonneg_left (mul_le_mul_of_nonneg_right fA hv) hg
    nlinarith
  refine ⟨h1, ?_⟩
  have h5 := eucl_orth hQ.orth' (asV n (rvec v))
  have h6 := eucl_add (Q.mulVec (asV n (rvec v))) (asV n (rvec (soAct n a v w)) - Q.mulVec (asV n (rvec v)))
  have h7 := eucl_sub (asV n (rvec (soAct n a v w))) (asV n (rvec (soAct n a v w)) - Q.mulVec (asV n (rvec v)))
  rw [add_sub_cancel, h5] at h6
  rw [sub_sub_cancel, h5] at h7
  rw [abs_le]; constructor <;> linarith

/-! ## poses -/

/-- the translation of the product of the rigid transformations `x ↦ R i x + b i`, `i ≤ k` -/
noncomputable def chainT (R : ℕ → Matrix (Fin n) (Fin n) ℝ) (b : ℕ → Fin n → ℝ) (k : ℕ) : Fin n → ℝ :=
  b 0 + ∑ i ∈ range k, (chain R i).mulVec (b (i + 1))

/-- that it is: applying the transformations one after the other, last one first -/
theorem chainT_spec (R : ℕ → Matrix (Fin n) (Fin n) ℝ) (b : ℕ → Fin n → ℝ) (k : ℕ) (x : Fin n → ℝ) :
    (chain R (k + 1)).mulVec x + chainT R b (k + 1) =
      (chain R k).mulVec ((R (k + 1)).mulVec x + b (k + 1)) + chainT R b k := by
  rw [chain_succ, chainT, chainT, sum_range_succ, Matrix.mulVec_add, Matrix.mulVec_mulVec]; abel

theorem addV_err (a b w : Vec (Fl ρ)) :
    eucl (asV n (rvec (Ops.addV n a b w)) - (asV n (rvec a) + asV n (rvec b))) ≤
      ρ.u * eucl (asV n (rvec a) + asV n (rvec b)) := by
  rw [← eucl_smul _ ρ.u_nonneg]
  refine eucl_mono fun i => ?_
  have h := (c61_elementwise (ρ := ρ) n 0 0 a b w 0 (fun _ _ => 0) (fun _ _ => 0) (fun _ _ => 0)).1 i i.2
  refine le_trans h (le_of_eq ?_)
  rw [abs_mul, abs_of_nonneg ρ.u_nonneg]; rfl

/-- **C69** transforming a point by a stored pose -/
theorem c69_pose_act (hn : n * ρ.u < 1) (a : Pose ρ) (x w1 w2 : Vec (Fl ρ)) (Q : Matrix (Fin n) (Fin n) ℝ) (hQ : IsRot Q)
    (T y : Fin n → ℝ) (e τ η : ℝ) (ha : frob (asM n n (rmat a.R) - Q) ≤ e) (ht : eucl (asV n (rvec a.t) - T) ≤ τ)
    (hx : eucl (asV n (rvec x) - y) ≤ η) :
    eucl (asV n (rvec (seAct n a x w1 w2)) - (Q.mulVec y + T)) ≤
      (1 + ρ.u) * (τ + (e + gam ρ.u n * (Real.sqrt n + e)) * (eucl y + η) + η) + ρ.u * eucl (Q.mulVec y + T) := by
  have hg := gam_nonneg ρ.u_nonneg ρ.u_lt_one hn
  have hu := ρ.u_nonneg
  have he := le_trans (frob_nonneg _) ha
  have h1 := (c69_act hn a.R x w1 Q hQ e ha).1
  have h2 := addV_err (n := n) a.t (soAct n a.R x w1) w2
  have hc : 0 ≤ e + gam ρ.u n * (Real.sqrt n + e) := by positivity
  change eucl (asV n (rvec (Ops.addV n a.t (soAct n a.R x w1) w2)) - _) ≤ _
  generalize asV n (rvec (Ops.addV n a.t (soAct n a.R x w1) w2)) = z at *
  generalize asV n (rvec (soAct n a.R x w1)) = w at *
  generalize asV n (rvec a.t) = t at *
  generalize asV n (rvec x) = x at *
  generalize e + gam ρ.u n * (Real.sqrt n + e) = c at *
  have hxy : eucl x ≤ eucl y + η := by
    have := eucl_add y (x - y); rw [add_sub_cancel] at this; linarith
  have h3 : eucl (w - Q.mulVec y) ≤ c * (eucl y + η) + η := by
    have e1 : w - Q.mulVec y = (w - Q.mulVec x) + Q.mulVec (x - y) := by rw [Matrix.mulVec_sub]; abel
    rw [e1]
    refine le_trans (eucl_add _ _) ?_
    rw [eucl_orth hQ.orth']
    have := mul_le_mul_of_nonneg_left hxy hc
    linarith
  have h4 : eucl ((t + w) - (Q.mulVec y + T)) ≤ τ + (c * (eucl y + η) + η) := by
    have e1 : (t + w) - (Q.mulVec y + T) = (t - T) + (w - Q.mulVec y) := by abel
    rw [e1]
    exact le_trans (eucl_add _ _) (by linarith)
  have h5 : eucl (t + w) ≤ eucl (Q.mulVec y + T) + (τ + (c * (eucl y + η) + η)) := by
    have := eucl_add (Q.mulVec y + T) ((t + w) - (Q.mulVec y + T)); rw [add_sub_cancel] at this; linarith
  have e2 : z - (Q.mulVec y + T) = (z - (t + w)) + ((t + w) - (Q.mulVec y + T)) := by abel
  rw [e2]
  refine le_trans (eucl_add _ _) ?_
  have := mul_le_mul_of_nonneg_left h5 hu
  nlinarith

theorem chainT_le (R : ℕ → Matrix (Fin n) (Fin n) ℝ) (b : ℕ → Fin n → ℝ) (k : ℕ) (L : ℝ)
    (hR : ∀ i, i ≤ k → IsRot (R i)) (hb : ∀ i, i ≤ k → eucl (b i) ≤ L) : eucl (chainT R b k) ≤ (k + 1) * L := by
  induction k with
  | zero => simp only [chainT, range_zero, sum_empty, add_zero]; have := hb 0 le_rfl; push_cast; linarith
  | succ k ih =>
    have ih := ih (fun i hi => hR i (by omega)) (fun i hi => hb i (by omega))
    have e1 : chainT R b (k + 1) = chainT R b k + (chain R k).mulVec (b (k + 1)) := by
      rw [chainT, chainT, sum_range_succ, add_assoc]
    rw [e1]
    refine le_trans (eucl_add _ _) ?_
    rw [eucl_orth (mul_eq_one_comm.1 (chain_orth R k fun i hi => (hR i (by omega)).orth))]
    have := hb (k + 1) le_rfl
    push_cast; linarith

/-- determinants multiply, so the chain of rotations is a rotation -/
theorem chain_isRot (R : ℕ → Matrix (Fin n) (Fin n) ℝ) (k : ℕ) (hR : ∀ i, i ≤ k → IsRot (R i)) : IsRot (chain R k) := by
  refine ⟨chain_orth R k fun i hi => (hR i hi).orth, ?_⟩
  induction k with
  | zero => rw [chain_zero]; exact (hR 0 le_rfl).det
  | succ k ih => rw [chain_succ, Matrix.det_mul, ih fun i hi => hR i (by omega), (hR _ le_rfl).det, one_mul]

/-- **C69** chaining `k + 1` poses (odometry): if the stored rotations are within `ε`, the stored translations within `β` of the
true ones and the true translations are no longer than `L`, the final translation is within
`(1 + u)ᵏ (k + 1) (σ + u (k + 1) L)` of the true one, where `σ` bounds one step's error -/
theorem c69_pose_drift (hn : n * ρ.u < 1) (A : ℕ → Pose ρ) (W : ℕ → Junk ρ) (R : ℕ → Matrix (Fin n) (Fin n) ℝ)
    (b : ℕ → Fin n → ℝ) (k : ℕ) (ε β L E σ : ℝ)
    (hR : ∀ i, i ≤ k → IsRot (R i)) (hA : ∀ i, i ≤ k → frob (asM n n (rmat (A i).R) - R i) ≤ ε)
    (hb : ∀ i, i ≤ k → eucl (asV n (rvec (A i).t) - b i) ≤ β) (hL : ∀ i, i ≤ k → eucl (b i) ≤ L)
    (hE : (1 + ε) * ((1 + ε) * (1 + n * gam ρ.u n)) ^ k - 1 ≤ E)
    (hσ : (E + gam ρ.u n * (Real.sqrt n + E)) * (L + β) + β ≤ σ) :
    frob (asM n n (rmat (seChain n A W k).R) - chain R k) ≤ E ∧
    eucl (asV n (rvec (seChain n A W k).t) - chainT R b k) ≤ (1 + ρ.u) ^ k * ((k + 1) * (σ + ρ.u * ((k + 1) * L))) := by
  have hg := gam_nonneg ρ.u_nonneg ρ.u_lt_one hn
  have hng : 0 ≤ n * gam ρ.u n := by positivity
  have hu := ρ.u_nonneg
  have hε : 0 ≤ ε := le_trans (frob_nonneg _) (hA 0 (by omega))
  have hβ : 0 ≤ β := le_trans (eucl_nonneg _) (hb 0 (by omega))
  have hL0 : 0 ≤ L := le_trans (eucl_nonneg _) (hL 0 (by omega))
  have eR : ∀ k, (seChain n A W k).R = soChain n (fun i => (A i).R) (fun i => (W i).m) k := by
    intro k; induction k with
    | zero => rfl
    | succ k ih => simp only [seChain, soChain, seMul, ih]
  have hq : 1 ≤ (1 + ε) * (1 + n * gam ρ.u n) := by nlinarith
  have hrot : ∀ j, j ≤ k → frob (asM n n (rmat (seChain n A W j).R) - chain R j) ≤ E := by
    intro j hj
    rw [eR]
    refine le_trans (c69_drift hn _ _ R j ε (fun i hi => hR i (by omega)) (fun i hi => hA i (by omega))) (le_trans ?_ hE)
    have := mul_le_mul_of_nonneg_left (pow_le_pow_right₀ hq hj) (by linarith : (0:ℝ) ≤ 1 + ε)
    linarith
  have hE0 : 0 ≤ E := le_trans (frob_nonneg _) (hrot 0 (by omega))
  have hc : 0 ≤ E + gam ρ.u n * (Real.sqrt n + E) := by positivity
  have hσ0 : β ≤ σ := by nlinarith [mul_nonneg hc (add_nonneg hL0 hβ)]
  refine ⟨hrot k le_rfl, ?_⟩
  have main : ∀ j, j ≤ k → eucl (asV n (rvec (seChain n A W j).t) - chainT R b j) ≤
      (1 + ρ.u) ^ j * ((j + 1) * (σ + ρ.u * ((j + 1) * L))) := by
    intro j
    induction j with
    | zero =>
      intro _
      have := hb 0 (by omega)
      simp only [seChain, chainT, range_zero, sum_empty, add_zero]
      have : 0 ≤ ρ.u * L := by positivity
      push_cast; nlinarith
    | succ j ih =>
      intro hj
      have ih := ih (by omega)
      have h1 := c69_pose_act hn (seChain n A W j) (A (j + 1)).t (W j).v1 (W j).v2 (chain R j)
        (chain_isRot R j fun i hi => hR i (by omega)) (chainT R b j) (b (j + 1)) E _ β (hrot j (by omega)) ih (hb _ hj)
      have e1 : chainT R b (j + 1) = (chain R j).mulVec (b (j + 1)) + chainT R b j := by
        rw [chainT, chainT, sum_range_succ]; abel
      have h2 := chainT_le R b (j + 1) L (fun i hi => hR i (by omega)) (fun i hi => hL i (by omega))
      rw [← e1] at h1
      change eucl (asV n (rvec (seAct n (seChain n A W j) (A (j + 1)).t (W j).v1 (W j).v2)) - _) ≤ _
      refine le_trans h1 ?_
      have h3 : (E + gam ρ.u n * (Real.sqrt n + E)) * (eucl (b (j + 1)) + β) + β ≤ σ := by
        refine le_trans ?_ hσ
        have := mul_le_mul_of_nonneg_left (hL (j + 1) hj) hc
        nlinarith
      have hp : 1 ≤ (1 + ρ.u) ^ (j + 1) := one_le_pow₀ (by linarith)
      have h4 := mul_le_mul_of_nonneg_left h2 hu
      have h5 := mul_le_mul_of_nonneg_left h3 (by linarith : (0:ℝ) ≤ 1 + ρ.u)
      have hσσ : 0 ≤ σ := le_trans hβ hσ0
      have hj0 : (0:ℝ) ≤ j := Nat.cast_nonneg j
      push_cast at h4 ⊢
      have h6 : (1 + ρ.u) * σ + ρ.u * ((j + 1 + 1) * L) ≤ (1 + ρ.u) ^ (j + 1) * (σ + ρ.u * ((j + 1 + 1) * L)) := by
        have a1 : (1 + ρ.u) * σ ≤ (1 + ρ.u) ^ (j + 1) * σ := by
          refine mul_le_mul_of_nonneg_right ?_ hσσ
          calc (1 + ρ.u) = (1 + ρ.u) ^ 1 := (pow_one _).symm
            _ ≤ _ := pow_le_pow_right₀ (by linarith) (by omega)
        have a2 : 0 ≤ ρ.u * ((j + 1 + 1) * L) := by positivity
        have a3 := mul_le_mul_of_nonneg_right hp a2
        linarith
      have h7 : (1 + ρ.u) * ((1 + ρ.u) ^ j * ((j + 1) * (σ + ρ.u * ((j + 1) * L)))) ≤
          (1 + ρ.u) ^ (j + 1) * ((j + 1) * (σ + ρ.u * ((j + 1 + 1) * L))) := by
        rw [pow_succ, mul_comm ((1 + ρ.u) ^ j) (1 + ρ.u), mul_assoc]
        refine mul_le_mul_of_nonneg_left (mul_le_mul_of_nonneg_left (mul_le_mul_of_nonneg_left ?_ (by positivity))
          (by positivity)) (by positivity)
        have : ρ.u * ((j + 1) * L) ≤ ρ.u * ((j + 1 + 1) * L) := by
          refine mul_le_mul_of_nonneg_left (mul_le_mul_of_nonneg_right (by linarith) hL0) hu
        linarith
      nlinarith
  exact main k le_rfl

end TooN.FlRot
