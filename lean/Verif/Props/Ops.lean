import Verif.Proof.Ops
import Mathlib.LinearAlgebra.Matrix.Notation
import Mathlib.Data.Matrix.Basis
/-!
# C09, C10, C11, C14, C52 (products): arithmetic operators compute the mathematical result

`u`, `t`, `u₁` … are the uninitialised contents of result objects; each theorem holds for all of
them.  Frame conditions (`n ≤ i`) say nothing outside the result's size is written.
-/
namespace TooN.Ops
open Finset
variable {K : Type _}

/-! ## C09 -/

/-- **C09** vector `+`, `-`, `diagmult` are elementwise; no assumption on the element type. -/
theorem c09_pairwise_vector (op : K → K → K) (n : Nat) (a b u : Vec K) :
    (∀ i, i < n → pairwiseV op n a b u i = op (a i) (b i)) ∧
    (∀ i, n ≤ i → pairwiseV op n a b u i = u i) := by
  constructor
  · intro i hi; rw [pairwiseV, forN_vecset, if_pos hi]
  · intro i hi; rw [pairwiseV, forN_vecset, if_neg (by omega)]

theorem c09_add_sub_vector [Ring K] (n : Nat) (a b u : Vec K) :
    asV n (addV n a b u) = asV n a + asV n b ∧ asV n (subV n a b u) = asV n a - asV n b ∧
    asV n (diagmultVV n a b u) = asV n a * asV n b := by
  refine ⟨?_, ?_, ?_⟩ <;> funext i
  · exact (c09_pairwise_vector _ n a b u).1 i i.2
  · exact (c09_pairwise_vector _ n a b u).1 i i.2
  · exact (c09_pairwise_vector _ n a b u).1 i i.2

example : asV 2 (addV 2 (fun i => (i:ℤ)) (fun i => 10 * i) (fun _ => 99)) = ![0, 11] := by decide

/-- **C09** matrix `+`, `-`. -/
theorem c09_pairwise_matrix (op : K → K → K) (R C : Nat) (A B u : Mat K) :
    (∀ r c, r < R → c < C → pairwiseM op R C A B u r c = op (A r c) (B r c)) ∧
    (∀ r c, ¬ (r < R ∧ c < C) → pairwiseM op R C A B u r c = u r c) := by
  constructor
  · intro r c hr hc; rw [pairwiseM, evalM_apply, if_pos ⟨hr, hc⟩]
  · intro r c h; rw [pairwiseM, evalM_apply, if_neg h]

theorem c09_add_sub_matrix [Ring K] (R C : Nat) (A B u : Mat K) :
    asM R C (addM R C A B u) = asM R C A + asM R C B ∧
    asM R C (subM R C A B u) = asM R C A - asM R C B := by
  constructor
  · ext i j; exact (c09_pairwise_matrix _ R C A B u).1 i j i.2 j.2
  · ext i j; exact (c09_pairwise_matrix _ R C A B u).1 i j i.2 j.2

/-- **C09** scalar multiplication/division on either side, and unary minus (`* -1`). -/
theorem c09_scalar [Field K] (n R C : Nat) (s : K) (v u : Vec K) (A U T : Mat K) (t : Vec K) :
    asV n (applyScalarV (· * ·) n v s u) = s • asV n v ∧
    asV n (applyScalarVL (· * ·) n s v u) = s • asV n v ∧
    asV n (applyScalarV (· / ·) n v s u) = s⁻¹ • asV n v ∧
    asV n (negV n v t u) = - asV n v ∧
    asM R C (applyScalarM (· * ·) R C A s U) = s • asM R C A ∧
    asM R C (applyScalarML (· * ·) R C s A U) = s • asM R C A ∧
    asM R C (applyScalarM (· / ·) R C A s U) = s⁻¹ • asM R C A ∧
    asM R C (negM R C A T U) = - asM R C A := by
  refine ⟨?_, ?_, ?_, ?_, ?_, ?_, ?_, ?_⟩
  · funext i; simp [applyScalarV, forN_vecset, mul_comm]
  · funext i; simp [applyScalarVL, forN_vecset]
  · funext i; simp [applyScalarV, forN_vecset, div_eq_inv_mul]
  · funext i; simp [negV, copyV, applyScalarV, forN_vecset]
  · ext i j; simp [applyScalarM, evalM_apply, mul_comm]
  · ext i j; simp [applyScalarML, evalM_apply]
  · ext i j; simp [applyScalarM, evalM_apply, div_eq_inv_mul]
  · ext i j; simp [negM, applyScalarM, evalM_apply]

/-- **C09** dot product. -/
theorem c09_dot [NonUnitalNonAssocSemiring K] (n : Nat) (a b : Vec K) :
    dot n a b = asV n a ⬝ᵥ asV n b := by
  rw [dot_eq, sum_range_fin]; rfl

/-- **C09** cross product. -/
theorem c09_cross [Ring K] (a b u : Vec K) :
    asV 3 (cross a b u) = ![a 1 * b 2 - a 2 * b 1, a 2 * b 0 - a 0 * b 2, a 0 * b 1 - a 1 * b 0] := by
  funext i; fin_cases i <;> simp [cross, Vec.set]

/-- **C09** matrix * matrix. -/
theorem c09_mul_matrix [NonUnitalNonAssocSemiring K] (R M C : Nat) (A B u : Mat K) :
    asM R C (mulMM R M C A B u) = asM R M A * asM M C B := by
  ext i j
  simp only [asM_apply, mulMM, evalM_apply, i.2, j.2, and_self, if_true, Matrix.mul_apply]
  rw [dot_eq, sum_range_fin]; rfl

/-- **C09** matrix * vector and vector * matrix. -/
theorem c09_mul_vector [NonUnitalNonAssocSemiring K] (R C : Nat) (A : Mat K) (v w u u' : Vec K) :
    asV R (mulMV R C A v u) = (asM R C A).mulVec (asV C v) ∧
    asV C (mulVM R C w A u') = Matrix.vecMul (asV R w) (asM R C A) := by
  constructor
  · funext i
    simp only [asV_apply, mulMV, forN_vecset, i.2, if_true, Matrix.mulVec, dotProduct]
    rw [dot_eq, sum_range_fin]; rfl
  · funext i
    simp only [asV_apply, mulVM, forN_vecset, i.2, if_true, Matrix.vecMul, dotProduct]
    rw [dot_eq, sum_range_fin]; rfl

/-- **C09** the matrix forms of `diagmult` scale columns / rows. -/
theorem c09_diagmult_matrix [NonUnitalNonAssocSemiring K] (R C : Nat) (A u : Mat K) (v w : Vec K) :
    asM R C (diagmultMV R C A v u) = asM R C A * Matrix.diagonal (asV C v) ∧
    asM R C (diagmultVM R C w A u) = Matrix.diagonal (asV R w) * asM R C A := by
  constructor
  · ext i j; simp [diagmultMV, evalMc_apply, Matrix.mul_diagonal]
  · ext i j; simp [diagmultVM, evalM_apply, Matrix.diagonal_mul]

example : asM 2 2 (mulMM 2 2 2 (fun i j => (i + 2 * j : ℤ)) (fun i j => i - j) (fun _ _ => 7)) =
    !![2, 0; 3, -1] := by decide

/-! ## C10 -/

/-- **C10** associativity: computed `(A*B)*C` and `A*(B*C)` agree. -/
theorem c10_mul_assoc [NonUnitalSemiring K] (R M N C : Nat) (A B D u₁ u₂ u₃ u₄ : Mat K) (i j : Nat)
    (hi : i < R) (hj : j < C) :
    mulMM R N C (mulMM R M N A B u₁) D u₂ i j = mulMM R M C A (mulMM M N C B D u₃) u₄ i j := by
  have : asM R C (mulMM R N C (mulMM R M N A B u₁) D u₂) =
      asM R C (mulMM R M C A (mulMM M N C B D u₃) u₄) := by
    simp only [c09_mul_matrix, Matrix.mul_assoc]
  exact (asM_eq_iff R C _ _).1 this i j hi hj

/-- **C10** `(A*B).T() = B.T()*A.T()`. -/
theorem c10_mul_transpose [NonUnitalCommSemiring K] (R M C : Nat) (A B u₁ u₂ : Mat K) (i j : Nat)
    (hi : i < C) (hj : j < R) :
    Mat.T (mulMM R M C A B u₁) i j = mulMM C M R (Mat.T B) (Mat.T A) u₂ i j := by
  have e : ∀ (r c : Nat) (X : Mat K), asM c r (Mat.T X) = (asM r c X).transpose := fun _ _ _ => rfl
  have : asM C R (Mat.T (mulMM R M C A B u₁)) = asM C R (mulMM C M R (Mat.T B) (Mat.T A) u₂) := by
    rw [e, c09_mul_matrix, c09_mul_matrix, e, e, Matrix.transpose_mul]
  exact (asM_eq_iff C R _ _).1 this i j hi hj

/-- **C10** distributivity. -/
theorem c10_mul_add [Ring K] (R M C : Nat) (A B D u₁ u₂ u₃ u₄ u₅ : Mat K) (i j : Nat)
    (hi : i < R) (hj : j < C) :
    mulMM R M C A (addM M C B D u₁) u₂ i j =
      addM R C (mulMM R M C A B u₃) (mulMM R M C A D u₄) u₅ i j := by
  have : asM R C (mulMM R M C A (addM M C B D u₁) u₂) =
      asM R C (addM R C (mulMM R M C A B u₃) (mulMM R M C A D u₄) u₅) := by
    simp only [c09_mul_matrix, (c09_add_sub_matrix _ _ _ _ _).1, Matrix.mul_add]
  exact (asM_eq_iff R C _ _).1 this i j hi hj

/-- **C10** `A*(x) ` agrees with applying twice: `(A*B)*v = A*(B*v)`. -/
theorem c10_mul_vec_assoc [NonUnitalSemiring K] (R M C : Nat) (A B u₁ : Mat K) (v u₂ u₃ u₄ : Vec K)
    (i : Nat) (hi : i < R) :
    mulMV R C (mulMM R M C A B u₁) v u₂ i = mulMV R M A (mulMV M C B v u₃) u₄ i := by
  have : asV R (mulMV R C (mulMM R M C A B u₁) v u₂) = asV R (mulMV R M A (mulMV M C B v u₃) u₄) := by
    rw [(c09_mul_vector R C _ v (fun _ => 0) u₂ u₂).1, (c09_mul_vector R M _ _ (fun _ => 0) u₄ u₄).1,
      (c09_mul_vector M C _ _ (fun _ => 0) u₃ u₃).1, c09_mul_matrix, Matrix.mulVec_mulVec]
  exact (asV_eq_iff R _ _).1 this i hi

/-- **C10** `v.as_col() * w.as_row()` is the outer product. -/
theorem c10_outer_product [NonUnitalNonAssocSemiring K] (R C : Nat) (v w : Vec K) (u : Mat K) (i j : Nat)
    (hi : i < R) (hj : j < C) :
    mulMM R 1 C (fun r _ => v r) (fun _ c => w c) u i j = v i * w j := by
  simp [mulMM, evalM_apply, hi, hj, dot, Mat.T]

/-- **C10** the cross product is antisymmetric and orthogonal to both factors. -/
theorem c10_cross_laws [CommRing K] (a b u u' : Vec K) :
    dot 3 a (cross a b u) = 0 ∧ dot 3 b (cross a b u) = 0 ∧
    (∀ i, i < 3 → cross a b u i = - cross b a u' i) := by
  have h : ∀ a b u : Vec K, cross a b u 0 = a 1 * b 2 - a 2 * b 1 ∧
      cross a b u 1 = a 2 * b 0 - a 0 * b 2 ∧ cross a b u 2 = a 0 * b 1 - a 1 * b 0 := by
    intro a b u; simp [cross, Vec.set]
  obtain ⟨h0, h1, h2⟩ := h a b u
  obtain ⟨k0, k1, k2⟩ := h b a u'
  refine ⟨?_, ?_, ?_⟩
  · simp only [dot, forN_succ, forN_zero, h0, h1, h2]; ring
  · simp only [dot, forN_succ, forN_zero, h0, h1, h2]; ring
  · intro i hi
    have : i = 0 ∨ i = 1 ∨ i = 2 := by omega
    rcases this with rfl | rfl | rfl
    · rw [h0, k0]; ring
    · rw [h1, k1]; ring
    · rw [h2, k2]; ring

/-- **C10** a matrix set to `Identity` is neutral on both sides. -/
theorem c10_identity_neutral [NonAssocSemiring K] (R C : Nat) (A u u₁ u₂ : Mat K) :
    ∃ I J, identityEval R R 1 u = .ok I ∧ identityEval C C 1 u = .ok J ∧
      ∀ i j, i < R → j < C → mulMM R R C I A u₁ i j = A i j ∧ mulMM R C C A J u₂ i j = A i j := by
  refine ⟨_, _, by simp [identityEval]; rfl, by simp [identityEval]; rfl, ?_⟩
  have hI : ∀ n, asM n n (forN n (fun r m => Mat.set m r r (1 : K)) (evalM n n (fun _ _ => 0) u)) = 1 := by
    intro n; ext i j
    rw [asM_apply, forN_diagupd n (fun _ _ => (1 : K)), evalM_apply, Matrix.one_apply]
    by_cases h : i = j
    · subst h; simp
    · have : ¬ (i : Nat) = j := fun e => h (Fin.ext e)
      simp [h, this]
  intro i j hi hj
  have hl : ∀ I : Mat K, asM R R I = 1 → asM R C (mulMM R R C I A u₁) = asM R C A := by
    intro I h; rw [c09_mul_matrix, h, Matrix.one_mul]
  have hr : ∀ J : Mat K, asM C C J = 1 → asM R C (mulMM R C C A J u₂) = asM R C A := by
    intro J h; rw [c09_mul_matrix, h, Matrix.mul_one]
  exact ⟨(asM_eq_iff R C _ _).1 (hl _ (hI R)) i j hi hj, (asM_eq_iff R C _ _).1 (hr _ (hI C)) i j hi hj⟩

/-! ## C11 -/

/-- **C11** `Zeros` and `Ones*s` set exactly the object's elements. -/
theorem c11_fill [Zero K] (n R C : Nat) (s : K) (v : Vec K) (m : Mat K) :
    (∀ i, zerosV n v i = if i < n then 0 else v i) ∧
    (∀ r c, zerosM R C m r c = if r < R ∧ c < C then 0 else m r c) ∧
    (∀ i, onesEvalV n s v i = if i < n then s else v i) ∧
    (∀ r c, onesEvalM R C s m r c = if r < R ∧ c < C then s else m r c) :=
  ⟨fun i => forN_vecset n (fun _ => 0) v i, fun r c => evalM_apply R C _ m r c,
   fun i => forN_vecset n (fun _ => s) v i, fun r c => evalM_apply R C _ m r c⟩

/-- **C11** `Identity*s`: accepted exactly on square matrices, and then gives `s` on the diagonal, `0`
elsewhere. -/
theorem c11_identity [MulZeroOneClass K] (R C : Nat) (s : K) (u : Mat K) :
    (R ≠ C → identityEval R C s u = .abort) ∧
    (R = C → ∃ m, identityEval R C s u = .ok m ∧
      asM R R m = Matrix.diagonal (fun _ => s) ∧ (∀ r c, ¬ (r < R ∧ c < R) → m r c = u r c)) := by
  constructor
  · intro h; simp [identityEval, h]
  · rintro rfl
    refine ⟨_, by simp [identityEval]; rfl, ?_, ?_⟩
    · ext i j
      rw [asM_apply, forN_diagupd R (fun _ _ => s), evalM_apply, Matrix.diagonal_apply]
      by_cases h : i = j
      · subst h; simp
      · have : ¬ (i : Nat) = j := fun e => h (Fin.ext e)
        simp [h, this]
    · intro r c h
      rw [forN_diagupd R (fun _ _ => s), evalM_apply, if_neg (by omega), if_neg h]

/-- **C11** `m += Identity*s`, `m + Identity*s`, `m - Identity*s`, `Identity*s - m`. -/
theorem c11_identity_arith [Ring K] (n : Nat) (s : K) (m u : Mat K) :
    (∃ x, identityPlusEq n n s m = .ok x ∧ asM n n x = asM n n m + Matrix.diagonal (fun _ => s) ∧
      ∀ r c, ¬ (r < n ∧ c < n) → x r c = m r c) ∧
    (∃ x, addIdentity n n s m u = .ok x ∧ asM n n x = asM n n m + Matrix.diagonal (fun _ => s)) ∧
    (∃ x, subIdentity n n s m u = .ok x ∧ asM n n x = asM n n m - Matrix.diagonal (fun _ => s)) ∧
    (∃ x, identitySub n n s m u = .ok x ∧ asM n n x = Matrix.diagonal (fun _ => s) - asM n n m) := by
  have key : ∀ (s : K) (inv : Bool) (i j : Fin n), addIdentityEval n n s m inv u i j =
      (if inv then - m i j else m i j) + (Matrix.diagonal (fun _ => s) : Matrix (Fin n) (Fin n) K) i j := by
    intro s inv i j
    rw [addIdentityEval, forN_diagupd n (fun _ x => x + s), evalM_apply, Matrix.diagonal_apply]
    by_cases h : i = j
    · subst h; simp
    · have : ¬ (i : Nat) = j := fun e => h (Fin.ext e)
      simp [h, this]
  refine ⟨⟨_, by simp [identityPlusEq]; rfl, ?_, ?_⟩, ⟨_, by simp [addIdentity]; rfl, ?_⟩,
    ⟨_, by simp [subIdentity]; rfl, ?_⟩, ⟨_, by simp [identitySub]; rfl, ?_⟩⟩
  · ext i j
    rw [asM_apply, forN_diagupd n (fun _ x => x + s), Matrix.add_apply, Matrix.diagonal_apply]
    by_cases h : i = j
    · subst h; simp
    · have : ¬ (i : Nat) = j := fun e => h (Fin.ext e)
      simp [h, this]
  · intro r c h
    rw [forN_diagupd n (fun _ x => x + s), if_neg (by omega)]
  · ext i j; rw [asM_apply, key]; simp
  · ext i j; rw [asM_apply, key, Matrix.sub_apply, Matrix.diagonal_apply, Matrix.diagonal_apply]
    by_cases h : i = j <;> simp [h, sub_eq_add_neg]
  · ext i j; rw [asM_apply, key, Matrix.sub_apply]
    simp only [if_true, asM_apply]
    rw [sub_eq_add_neg, add_comm]

/-- **C11** non-square identity arithmetic is rejected. -/
theorem c11_identity_nonsquare [Ring K] (R C : Nat) (h : R ≠ C) (s : K) (m u : Mat K) :
    identityPlusEq R C s m = .abort ∧ addIdentity R C s m u = .abort ∧
    subIdentity R C s m u = .abort ∧ identitySub R C s m u = .abort := by
  simp [identityPlusEq, addIdentity, subIdentity, identitySub, h]

/-- **C11** adding/subtracting `Ones*s` on either side, in place or not. -/
theorem c11_ones_arith [Ring K] (n R C : Nat) (s : K) (v u : Vec K) (m U : Mat K) :
    (∀ i, onesPlusEqV n s v i = if i < n then v i + s else v i) ∧
    (∀ i, onesMinusEqV n s v i = if i < n then v i - s else v i) ∧
    (∀ i, i < n → onesAddV n s v u i = v i + s) ∧
    (∀ i, i < n → onesRSubV n s v u i = v i - s) ∧
    (∀ i, i < n → onesLSubV n s v u i = s - v i) ∧
    (∀ r c, onesPlusEqM R C s m r c = if r < R ∧ c < C then m r c + s else m r c) ∧
    (∀ r c, onesMinusEqM R C s m r c = if r < R ∧ c < C then m r c - s else m r c) ∧
    (∀ r c, r < R → c < C → onesAddM R C s m U r c = m r c + s) ∧
    (∀ r c, r < R → c < C → onesRSubM R C s m U r c = m r c - s) ∧
    (∀ r c, r < R → c < C → onesLSubM R C s m U r c = s - m r c) := by
  refine ⟨fun i => forN_vecupd n (fun _ x => x + s) v i, fun i => forN_vecupd n (fun _ x => x - s) v i,
    ?_, ?_, ?_, fun r c => forN_matupd R C (fun _ _ x => x + s) m r c,
    fun r c => forN_matupd R C (fun _ _ x => x - s) m r c, ?_, ?_, ?_⟩
  · intro i hi; simp [onesAddV, scalarsVec, forN_vecset, hi, add_comm]
  · intro i hi; simp [onesRSubV, scalarsVec, forN_vecset, hi, sub_eq_add_neg, add_comm]
  · intro i hi; simp [onesLSubV, scalarsVec, forN_vecset, hi]
  · intro r c hr hc; simp [onesAddM, scalarsMat, evalM_apply, hr, hc, add_comm]
  · intro r c hr hc; simp [onesRSubM, scalarsMat, evalM_apply, hr, hc, sub_eq_add_neg, add_comm]
  · intro r c hr hc; simp [onesLSubM, scalarsMat, evalM_apply, hr, hc]

example : (identityEval 2 2 (5:ℤ) (fun _ _ => 9)).bind (fun m => .ok (m 0 0, m 0 1, m 1 0, m 1 1)) =
    .ok (5, 0, 0, 5) := by decide

/-! ## C14 -/

/-- **C14** `==` is true iff no pair of corresponding elements compares `!=`; `!=` is its negation.
Holds for any scalar `!=` (including IEEE, where NaN `!=` NaN). -/
theorem c14_eq_raw (ne : K → K → Bool) (n R C : Nat) (v w : Vec K) (A B : Mat K) :
    (eqV ne n v w = true ↔ ∀ i, i < n → ne (v i) (w i) = false) ∧
    (neV ne n v w = !eqV ne n v w) ∧
    (eqM ne R C A B = true ↔ ∀ r c, r < R → c < C → ne (A r c) (B r c) = false) ∧
    (neM ne R C A B = !eqM ne R C A B) := by
  refine ⟨forNM_unit_isSome n _, ?_, forNM_unit_nested R C _, ?_⟩
  · simp [eqV, neV]
  · simp [eqM, neM]

/-- **C14** with ordinary equality of elements, `==` is equality of the objects. -/
theorem c14_eq [DecidableEq K] (n R C : Nat) (v w : Vec K) (A B : Mat K) :
    (eqV (fun a b => decide (a ≠ b)) n v w = true ↔ asV n v = asV n w) ∧
    (neV (fun a b => decide (a ≠ b)) n v w = true ↔ asV n v ≠ asV n w) ∧
    (eqM (fun a b => decide (a ≠ b)) R C A B = true ↔ asM R C A = asM R C B) ∧
    (neM (fun a b => decide (a ≠ b)) R C A B = true ↔ asM R C A ≠ asM R C B) := by
  obtain ⟨h1, h2, h3, h4⟩ := c14_eq_raw (fun a b => decide (a ≠ b)) n R C v w A B
  have e1 : eqV (fun a b => decide (a ≠ b)) n v w = true ↔ asV n v = asV n w := by
    rw [h1, asV_eq_iff]; simp
  have e3 : eqM (fun a b => decide (a ≠ b)) R C A B = true ↔ asM R C A = asM R C B := by
    rw [h3, asM_eq_iff]; simp
  refine ⟨e1, ?_, e3, ?_⟩
  · rw [h2, Bool.not_eq_true', ne_eq, ← e1, Bool.not_eq_true]
  · rw [h4, Bool.not_eq_true', ne_eq, ← e3, Bool.not_eq_true]

/-- **C14** `v != Zeros`. -/
theorem c14_ne_zeros [DecidableEq K] [Zero K] (n : Nat) (v : Vec K) :
    neZeroV (fun a b => decide (a ≠ b)) n v = true ↔ ∃ i, i < n ∧ v i ≠ 0 := by
  have := forNM_unit_isSome n (fun i => decide (v i ≠ 0))
  unfold neZeroV
  rw [← Option.not_isSome, Bool.not_eq_true', ← Bool.not_eq_true, this]
  simp

/-! ## C52 diagonal matrices -/

/-- **C52** products with diagonal matrices agree with the full matrices they denote. -/
theorem c52_diagonal [Field K] (n C : Nat) (d e v : Vec K) (u : Vec K) (A U : Mat K) :
    asM n n (diagEval n d U) = Matrix.diagonal (asV n d) ∧
    asV n (diagmultVV n d v u) = (Matrix.diagonal (asV n d)).mulVec (asV n v) ∧
    asV n (diagmultVV n v d u) = Matrix.vecMul (asV n v) (Matrix.diagonal (asV n d)) ∧
    Matrix.diagonal (asV n (diagmultVV n d e u)) = Matrix.diagonal (asV n d) * Matrix.diagonal (asV n e) ∧
    asM n C (diagmultVM n C d A U) = Matrix.diagonal (asV n d) * asM n C A := by
  refine ⟨?_, ?_, ?_, ?_, (c09_diagmult_matrix n C A U d d).2⟩
  · ext i j
    rw [asM_apply, diagEval, forN_diagupd n (fun i _ => d i), evalM_apply, Matrix.diagonal_apply]
    by_cases h : i = j
    · subst h; simp
    · have : ¬ (i : Nat) = j := fun e => h (Fin.ext e)
      simp [h, this]
  · rw [(c09_add_sub_vector n d v u).2.2]; funext i; simp [Matrix.mulVec_diagonal]
  · rw [(c09_add_sub_vector n v d u).2.2]; funext i; simp [Matrix.vecMul_diagonal]
  · rw [(c09_add_sub_vector n d e u).2.2, Matrix.diagonal_mul_diagonal]; rfl

/-- **C52** `DiagonalMatrix::inverse` is the inverse, and divides by zero iff the matrix is singular. -/
theorem c52_diag_inverse [Field K] [DecidableEq K] (n : Nat) (d u : Vec K) :
    ((∀ i, i < n → d i ≠ 0) → ∃ e, diagInverse n d u = some e ∧
      Matrix.diagonal (asV n d) * Matrix.diagonal (asV n e) = 1) ∧
    ((∃ i, i < n ∧ d i = 0) → diagInverse n d u = none) := by
  constructor
  · intro h
    obtain ⟨e, he, hp⟩ := forNM_total (fun k (e : Vec K) => ∀ i, i < k → e i = 1 / d i) n
      (fun i inv => if d i = 0 then none else some (Vec.set inv i (1 / d i))) u
      (by intro i hi; omega)
      (by
        intro i t hi ht
        refine ⟨_, if_neg (h i hi), ?_⟩
        intro j hj
        by_cases e : j = i
        · subst e; simp [Vec.set]
        · rw [Vec.set_ne _ _ _ _ e]; exact ht j (by omega))
    refine ⟨e, he, ?_⟩
    rw [Matrix.diagonal_mul_diagonal, ← Matrix.diagonal_one]
    congr 1; funext i
    simp only [asV_apply, Pi.one_apply]
    rw [hp i i.2, mul_one_div_cancel (h i i.2)]
  · rintro ⟨i, hi, h0⟩
    have key : ∀ k, i < k → forNM k (fun i (inv : Vec K) =>
        if d i = 0 then none else some (Vec.set inv i (1 / d i))) u = none := by
      intro k
      induction k with
      | zero => intro h; omega
      | succ k ih =>
        intro hk
        rw [forNM_succ]
        by_cases e : i = k
        · subst e
          cases forNM i (fun i (inv : Vec K) =>
            if d i = 0 then none else some (Vec.set inv i (1 / d i))) u <;> simp [h0]
        · rw [ih (by omega)]; rfl
    exact key n hi

end TooN.Ops
