import Verif.Spec.SymEigen
import Verif.Spec.SVD
import Verif.Spec.SymPosDef
import Verif.Proof.SVD
import Verif.Proof.Spectral
import Mathlib.LinearAlgebra.Matrix.NonsingularInverse
import Mathlib.LinearAlgebra.Matrix.Determinant.Basic
import Mathlib.Tactic.Linarith
/-!
# C30: everything `SymEigen` derives from an eigendecomposition; `syev` based `compute`
-/
set_option linter.unusedSectionVars false
namespace TooN.SymEigen
open TooN.LU TooN.Ops TooN.SVD Matrix

/-- **C30** the general (LAPACK) `compute` yields an eigendecomposition of every symmetric matrix. -/
theorem c30_compute (f : Syev) (hf : SyevOK f) (n : Nat) (m : Mat ℝ) (hm : (asM n n m)ᵀ = asM n n m) :
    (computeN f n m).n = n ∧
    IsEigen (asM n n m) (asM n n (computeN f n m).evectors) (asV n (computeN f n m).evalues) := by
  refine ⟨rfl, ?_⟩
  have := hf n (pack n m) n (asM n n m) le_rfl hm (by
    intro i j _
    have h := congrFun (congrFun (asM_fview_pack n n m) i) j
    rw [asM_apply] at h
    rw [h, hm])
  exact this

/-- **C30** the contract of `syev` can be met. -/
theorem c30_contract_satisfiable : ∃ f : Syev, SyevOK f := by
  classical
  choose Q l h using Spectral.sym_eig_exists
  let ofV : {n : Nat} → (Fin n → ℝ) → Vec ℝ := fun {n} v i => if h : i < n then v ⟨i, h⟩ else 0
  have hofV : ∀ (n : Nat) (v : Fin n → ℝ), asV n (ofV v) = v := by intro n v; funext i; simp [ofV]
  let sym : (N : Nat) → Buf ℝ → Nat → Matrix (Fin N) (Fin N) ℝ := fun N A lda =>
    Matrix.of fun i j => if i ≤ j then fview lda A i j else fview lda A j i
  have hsym : ∀ N A lda, (sym N A lda)ᵀ = sym N A lda := by
    intro N A lda; ext i j
    simp only [sym, transpose_apply, of_apply]
    rcases lt_trichotomy i j with h | h | h
    · rw [if_neg (not_le.2 h), if_pos h.le]
    · rw [h]
    · rw [if_pos h.le, if_neg (not_le.2 h)]
  refine ⟨fun _ _ N A lda => (fpack lda (ofM (Q N (sym N A lda) (hsym N A lda))), ofV (l N (sym N A lda) (hsym N A lda))), ?_⟩
  intro N A lda S hN hS hS'
  have e : S = sym N A lda := by
    ext i j
    simp only [sym, of_apply]
    by_cases h : i ≤ j
    · rw [if_pos h]; exact hS' i j h
    · rw [if_neg h, ← hS' j i (le_of_lt (not_le.1 h))]; exact congrFun (congrFun hS j) i
  subst e
  obtain ⟨h1, h2, h3, h4⟩ := h N (sym N A lda) (hsym N A lda)
  dsimp only
  rw [asM_fpack _ _ _ hN, hofV]
  refine ⟨by rw [transpose_transpose]; exact h1, by rw [transpose_transpose]; exact h3.symm, h4⟩

variable {n : Nat} {A : Matrix (Fin n) (Fin n) ℝ}

/-- the eigenvalue `l i` survives the conditioning threshold: it is larger than every `|l j| / condition` -/
def Kept (l : Fin n → ℝ) (condition : ℝ) (i : Fin n) : Prop := ∀ j, |l j| < |l i| * condition

/-- `A` with the eigenvalues that do not survive the threshold replaced by zero -/
noncomputable def truncated (V : Matrix (Fin n) (Fin n) ℝ) (l : Fin n → ℝ) (condition : ℝ) : Matrix (Fin n) (Fin n) ℝ :=
  open Classical in Vᵀ * diagonal (fun i => if Kept l condition i then l i else 0) * V

theorem orth' {V : Matrix (Fin n) (Fin n) ℝ} (h : V * Vᵀ = 1) : Vᵀ * V = 1 := mul_eq_one_comm.1 h

theorem maxDiag_spec (s : St) (hn : 1 ≤ s.n) (hl : Monotone (asV s.n s.evalues)) (x : ℝ) :
    (if -(s.evalues 0) > s.evalues (s.n - 1) then -(s.evalues 0) else s.evalues (s.n - 1)) < x ↔
    ∀ j : Fin s.n, |s.evalues j| < x := by
  have e0 : ∀ j : Fin s.n, s.evalues 0 ≤ s.evalues j := fun j =>
    hl (show (⟨0, by omega⟩ : Fin s.n) ≤ j from Nat.zero_le _)
  have e1 : ∀ j : Fin s.n, s.evalues j ≤ s.evalues (s.n - 1) := fun j =>
    hl (show j ≤ (⟨s.n - 1, by omega⟩ : Fin s.n) from by have := j.2; show j.1 ≤ s.n - 1; omega)
  constructor
  · intro h j
    have := e0 j
    have := e1 j
    rw [abs_lt]
    split_ifs at h with h'
    · constructor <;> linarith
    · constructor <;> linarith
  · intro h
    split_ifs with h'
    · have := (abs_lt.1 (h ⟨0, by omega⟩)).1
      have e : s.evalues (⟨0, by omega⟩ : Fin s.n).1 = s.evalues 0 := rfl
      rw [e] at this; linarith
    · exact (abs_lt.1 (h ⟨s.n - 1, by omega⟩)).2

open Classical in
theorem getInvDiag_eq' (s : St) (hn : 1 ≤ s.n) (hl : Monotone (asV s.n s.evalues)) (condition : ℝ) (u : Vec ℝ) :
    ∃ inv, getInvDiag s condition u = some inv ∧
      asV s.n inv = fun i => if Kept (asV s.n s.evalues) condition i then (s.evalues i)⁻¹ else 0 := by
  have := forNM_total (fun k inv => ∀ i : Fin s.n, i < k →
      inv i = if Kept (asV s.n s.evalues) condition i then (s.evalues i)⁻¹ else 0) s.n
    (fun i inv =>
      if |s.evalues i| * condition > (if -(s.evalues 0) > s.evalues (s.n - 1) then -(s.evalues 0) else s.evalues (s.n - 1)) then
        (if s.evalues i = 0 then none else some (Vec.set inv i (1 / s.evalues i)))
      else some (Vec.set inv i 0)) u
    (fun i hi => absurd hi (Nat.not_lt_zero i)) (by
      intro i t hi ht
      have hk := maxDiag_spec s hn hl (|s.evalues i| * condition)
      by_cases hc : Kept (asV s.n s.evalues) condition ⟨i, hi⟩
      · have hc' := hk.2 hc
        have hz : s.evalues i ≠ 0 := by
          intro hz
          have := hc ⟨i, hi⟩
          simp only [asV_apply, hz, abs_zero, zero_mul] at this
          exact lt_irrefl _ this
        refine ⟨Vec.set t i (1 / s.evalues i), by rw [if_pos hc', if_neg hz], ?_⟩
        intro j hj
        by_cases e : j.1 = i
        · have : j = ⟨i, hi⟩ := Fin.ext e
          subst this; rw [if_pos hc, Vec.set_self, one_div]
        · rw [Vec.set_ne _ _ _ _ e]; exact ht j (by omega)
      · have hc' : ¬ (|s.evalues i| * condition > _) := fun h => hc (hk.1 h)
        refine ⟨Vec.set t i 0, by rw [if_neg hc'], ?_⟩
        intro j hj
        by_cases e : j.1 = i
        · have : j = ⟨i, hi⟩ := Fin.ext e
          subst this; rw [if_neg hc, Vec.set_self]
        · rw [Vec.set_ne _ _ _ _ e]; exact ht j (by omega))
  obtain ⟨inv, h1, h2⟩ := this
  exact ⟨inv, h1, funext fun i => h2 i i.2⟩

/-- **C30** `get_inv_diag(condition)`: reciprocals of the eigenvalues that survive the threshold, zero for the others;
never divides by zero. -/
theorem c30_inv_diag (s : St) (hn : 1 ≤ s.n) (hl : Monotone (asV s.n s.evalues)) (condition : ℝ) (u : Vec ℝ) :
    ∃ inv, getInvDiag s condition u = some inv ∧ ∀ i : Fin s.n,
      (Kept (asV s.n s.evalues) condition i → inv i = 1 / s.evalues i) ∧
      (¬ Kept (asV s.n s.evalues) condition i → inv i = 0) := by
  classical
  obtain ⟨inv, h1, h2⟩ := getInvDiag_eq' s hn hl condition u
  refine ⟨inv, h1, fun i => ⟨fun h => ?_, fun h => ?_⟩⟩
  · have := congrFun h2 i; simp only [asV_apply] at this; rw [this, if_pos h, one_div]
  · have := congrFun h2 i; simp only [asV_apply] at this; rw [this, if_neg h]

/-- **C30** for every threshold, `get_pinv(condition)` is the pseudo-inverse of the truncated matrix, and both
`backsub` forms multiply by it. -/
theorem c30_pinv (s : St) (A : Matrix (Fin s.n) (Fin s.n) ℝ) (hn : 1 ≤ s.n)
    (h : IsEigen A (asM s.n s.n s.evectors) (asV s.n s.evalues)) (condition : ℝ) (c : Nat) (b : Vec ℝ) (B : Mat ℝ)
    (v1 v2 v3 v4 : Vec ℝ) (m1 m2 m3 m4 m5 : Mat ℝ) :
    ∃ P x X, getPinv s condition v1 m1 m2 = some P ∧ backsubV s condition b v1 v2 v3 v4 = some x ∧
      backsubM s condition c B v1 m3 m4 m5 = some X ∧
      MoorePenrose (truncated (asM s.n s.n s.evectors) (asV s.n s.evalues) condition) (asM s.n s.n P) ∧
      asV s.n x = (asM s.n s.n P).mulVec (asV s.n b) ∧ asM s.n c X = asM s.n s.n P * asM s.n c B := by
  classical
  obtain ⟨inv, h1, h2⟩ := getInvDiag_eq' s hn h.asc condition v1
  unfold getPinv backsubV backsubM
  rw [h1]
  refine ⟨_, _, _, rfl, rfl, rfl, ?_, ?_, ?_⟩
  · rw [Ops.c09_mul_matrix, asM_diagmultVM, WLS.asM_T, h2, ← Matrix.mul_assoc]
    have := moorePenrose_of_svd (U := (asM s.n s.n s.evectors)ᵀ) (VT := asM s.n s.n s.evectors)
      (by rw [transpose_transpose]; exact h.orth) h.orth
      (fun i => if Kept (asV s.n s.evalues) condition i then asV s.n s.evalues i else 0)
      (fun i => if Kept (asV s.n s.evalues) condition i then (s.evalues i)⁻¹ else 0) (by
        intro i
        by_cases hk : Kept (asV s.n s.evalues) condition i
        · simp only [if_pos hk, asV_apply]
          by_cases hz : s.evalues i = 0
          · simp [hz]
          · rw [mul_inv_cancel₀ hz, one_mul]
        · simp [if_neg hk]) (by
        intro i
        by_cases hk : Kept (asV s.n s.evalues) condition i
        · simp only [if_pos hk, asV_apply]
          by_cases hz : s.evalues i = 0
          · simp [hz]
          · rw [inv_mul_cancel₀ hz, one_mul]
        · simp [if_neg hk])
    rw [transpose_transpose] at this
    exact this
  · rw [(Ops.c09_mul_vector _ _ _ _ (fun _ => 0) _ (fun _ => 0)).1, asV_diagmultVV,
      (Ops.c09_mul_vector _ _ _ _ (fun _ => 0) _ (fun _ => 0)).1, Ops.c09_mul_matrix, asM_diagmultVM, WLS.asM_T]
    simp only [Matrix.mulVec_mulVec, Matrix.mul_assoc]
  · rw [Ops.c09_mul_matrix, asM_diagmultVM, Ops.c09_mul_matrix, Ops.c09_mul_matrix, asM_diagmultVM, WLS.asM_T]
    simp only [Matrix.mul_assoc]

/-- the threshold keeps every nonzero eigenvalue -/
def KeepsNonzero (l : Fin n → ℝ) (condition : ℝ) : Prop := ∀ i, l i ≠ 0 → Kept l condition i

theorem truncated_eq {V : Matrix (Fin n) (Fin n) ℝ} {l : Fin n → ℝ} (h : IsEigen A V l) (condition : ℝ)
    (hk : KeepsNonzero l condition) : truncated V l condition = A := by
  rw [← h.prod, truncated]
  congr 2
  congr 1
  funext i
  by_cases h' : Kept l condition i
  · rw [if_pos h']
  · rw [if_neg h']; by_contra h0; exact h' (hk i (Ne.symm h0))

theorem det_eq {V : Matrix (Fin n) (Fin n) ℝ} {l : Fin n → ℝ} (h : IsEigen A V l) : A.det = ∏ i, l i := by
  rw [← h.prod, det_mul, det_mul, det_diagonal, det_transpose]
  have h2 : V.det * V.det = 1 := by
    have := congrArg det h.orth
    rwa [det_mul, det_transpose, det_one] at this
  linear_combination (∏ i, l i) * h2

/-- **C30** if the threshold keeps every nonzero eigenvalue, `get_pinv` is the pseudo-inverse of `A`; if moreover `A` is
invertible, `get_pinv` is `A⁻¹` and `backsub` solves the system. -/
theorem c30_pinv_inverse (s : St) (A : Matrix (Fin s.n) (Fin s.n) ℝ) (hn : 1 ≤ s.n)
    (h : IsEigen A (asM s.n s.n s.evectors) (asV s.n s.evalues)) (condition : ℝ)
    (hk : KeepsNonzero (asV s.n s.evalues) condition) (c : Nat) (b : Vec ℝ) (B : Mat ℝ)
    (v1 v2 v3 v4 : Vec ℝ) (m1 m2 m3 m4 m5 : Mat ℝ) :
    ∃ P x X, getPinv s condition v1 m1 m2 = some P ∧ backsubV s condition b v1 v2 v3 v4 = some x ∧
      backsubM s condition c B v1 m3 m4 m5 = some X ∧
      MoorePenrose A (asM s.n s.n P) ∧
      (A.det ≠ 0 → asM s.n s.n P = A⁻¹ ∧ A.mulVec (asV s.n x) = asV s.n b ∧ A * asM s.n c X = asM s.n c B) := by
  obtain ⟨P, x, X, h1, h2, h3, h4, h5, h6⟩ := c30_pinv s A hn h condition c b B v1 v2 v3 v4 m1 m2 m3 m4 m5
  rw [truncated_eq h condition hk] at h4
  refine ⟨P, x, X, h1, h2, h3, h4, fun hd => ?_⟩
  have hu : IsUnit A.det := isUnit_iff_ne_zero.2 hd
  have hP : asM s.n s.n P = A⁻¹ := by
    calc asM s.n s.n P = (A⁻¹ * A) * asM s.n s.n P * (A * A⁻¹) := by
          rw [nonsing_inv_mul _ hu, mul_nonsing_inv _ hu, Matrix.one_mul, Matrix.mul_one]
      _ = A⁻¹ * (A * asM s.n s.n P * A) * A⁻¹ := by simp only [Matrix.mul_assoc]
      _ = A⁻¹ := by rw [h4.axa, nonsing_inv_mul _ hu, Matrix.one_mul]
  refine ⟨hP, ?_, ?_⟩
  · rw [h5, hP, mulVec_mulVec, mul_nonsing_inv _ hu, one_mulVec]
  · rw [h6, hP, ← Matrix.mul_assoc, mul_nonsing_inv _ hu, Matrix.one_mul]

/-- **C30** `get_determinant()` -/
theorem c30_determinant (s : St) (A : Matrix (Fin s.n) (Fin s.n) ℝ)
    (h : IsEigen A (asM s.n s.n s.evectors) (asV s.n s.evalues)) : getDeterminant s = A.det := by
  rw [det_eq h]
  have : ∀ k, forN k (fun i det => det * s.evalues i) 1 = ∏ i ∈ Finset.range k, s.evalues i := by
    intro k
    induction k with
    | zero => rfl
    | succ k ih => rw [forN_succ, ih, Finset.prod_range_succ]
  rw [getDeterminant, this, Finset.prod_range]
  rfl

theorem quad_form {V : Matrix (Fin n) (Fin n) ℝ} {l : Fin n → ℝ} (h : IsEigen A V l) (x : Fin n → ℝ) :
    x ⬝ᵥ A.mulVec x = ∑ i, l i * (V.mulVec x i * V.mulVec x i) := by
  rw [← h.prod, Matrix.mul_assoc, ← mulVec_mulVec, ← mulVec_mulVec, dotProduct_mulVec, vecMul_transpose]
  simp only [dotProduct, mulVec_diagonal]
  exact Finset.sum_congr rfl fun i _ => by ring

theorem isEigen_symm {V : Matrix (Fin n) (Fin n) ℝ} {l : Fin n → ℝ} (h : IsEigen A V l) : Aᵀ = A := by
  rw [← h.prod]; simp [transpose_mul, Matrix.mul_assoc]

theorem eigen_row {V : Matrix (Fin n) (Fin n) ℝ} {l : Fin n → ℝ} (h : IsEigen A V l) (i : Fin n) :
    V.mulVec (V i) = Pi.single i 1 ∧ V i ≠ 0 := by
  have e : V.mulVec (V i) = Pi.single i 1 := by
    funext j
    have := congrFun (congrFun h.orth j) i
    rw [mul_apply, one_apply] at this
    rw [mulVec, dotProduct, Pi.single_apply]
    exact this
  refine ⟨e, fun h0 => ?_⟩
  rw [h0, mulVec_zero] at e
  have := congrFun e i
  simp at this

theorem quad_row {V : Matrix (Fin n) (Fin n) ℝ} {l : Fin n → ℝ} (h : IsEigen A V l) (i : Fin n) :
    V i ⬝ᵥ A.mulVec (V i) = l i := by
  rw [quad_form h, (eigen_row h i).1]
  rw [Finset.sum_eq_single i] <;> simp +contextual [Pi.single_apply]

theorem mulVec_ne_zero' {V : Matrix (Fin n) (Fin n) ℝ} {l : Fin n → ℝ} (h : IsEigen A V l) {x : Fin n → ℝ} (hx : x ≠ 0) :
    ∃ i, V.mulVec x i ≠ 0 := by
  by_contra hc
  push Not at hc
  apply hx
  have : V.mulVec x = 0 := funext hc
  calc x = (Vᵀ * V).mulVec x := by rw [orth' h.orth, one_mulVec]
    _ = 0 := by rw [← mulVec_mulVec, this, mulVec_zero]

theorem forNM_pred (k : Nat) (p : Nat → Prop) [DecidablePred p] :
    (forNM k (fun i (_ : Unit) => if p i then none else some ()) ()).isSome = true ↔ ∀ i, i < k → ¬ p i := by
  have := forNM_unit_isSome k (fun i => decide (p i))
  simpa using this

theorem posdef_iff {V : Matrix (Fin n) (Fin n) ℝ} {l : Fin n → ℝ} (h : IsEigen A V l) :
    (∀ i, 0 < l i) ↔ SymPosDef A := by
  constructor
  · intro hp
    refine ⟨isEigen_symm h, fun x hx => ?_⟩
    rw [quad_form h]
    obtain ⟨i, hi⟩ := mulVec_ne_zero' h hx
    exact Finset.sum_pos' (fun j _ => mul_nonneg (hp j).le (mul_self_nonneg _))
      ⟨i, Finset.mem_univ i, mul_pos (hp i) (mul_self_pos.2 hi)⟩
  · intro hp i
    rw [← quad_row h i]; exact hp.2 _ (eigen_row h i).2

theorem possemidef_iff {V : Matrix (Fin n) (Fin n) ℝ} {l : Fin n → ℝ} (h : IsEigen A V l) :
    (∀ i, 0 ≤ l i) ↔ SymPosSemidef A := by
  constructor
  · intro hp
    refine ⟨isEigen_symm h, fun x => ?_⟩
    rw [quad_form h]
    exact Finset.sum_nonneg (fun j _ => mul_nonneg (hp j) (mul_self_nonneg _))
  · intro hp i
    rw [← quad_row h i]; exact hp.2 _

/-- **C30** `is_posdef()` iff `A` is positive definite, `is_negdef()` iff `-A` is. -/
theorem c30_definiteness (s : St) (A : Matrix (Fin s.n) (Fin s.n) ℝ)
    (h : IsEigen A (asM s.n s.n s.evectors) (asV s.n s.evalues)) :
    (isPosdef s = true ↔ SymPosDef A) ∧ (isNegdef s = true ↔ SymPosDef (-A)) := by
  constructor
  · rw [← posdef_iff h, isPosdef, forNM_pred]
    exact ⟨fun h i => not_le.1 (h i i.2), fun h i hi => not_le.2 (h ⟨i, hi⟩)⟩
  · rw [isNegdef, forNM_pred]
    have e : SymPosDef (-A) ↔ ∀ i : Fin s.n, asV s.n s.evalues i < 0 := by
      constructor
      · intro hp i
        have := hp.2 _ (eigen_row h i).2
        rw [neg_mulVec, dotProduct_neg, quad_row h i] at this
        linarith
      · intro hp
        refine ⟨by rw [transpose_neg, isEigen_symm h], fun x hx => ?_⟩
        rw [neg_mulVec, dotProduct_neg, quad_form h, ← Finset.sum_neg_distrib]
        obtain ⟨i, hi⟩ := mulVec_ne_zero' h hx
        refine Finset.sum_pos' (fun j _ => ?_) ⟨i, Finset.mem_univ i, ?_⟩
        · have := mul_nonneg (neg_nonneg.2 (hp j).le) (mul_self_nonneg ((asM s.n s.n s.evectors).mulVec x j)); linarith
        · have := mul_pos (neg_pos.2 (hp i)) (mul_self_pos.2 hi); linarith
    rw [e]
    exact ⟨fun h i => not_le.1 (h i i.2), fun h i hi => not_le.2 (h ⟨i, hi⟩)⟩

theorem sandwich_sq {V : Matrix (Fin n) (Fin n) ℝ} (hV : V * Vᵀ = 1) (d : Fin n → ℝ) :
    (Vᵀ * diagonal d * V)ᵀ = Vᵀ * diagonal d * V ∧
    Vᵀ * diagonal d * V * (Vᵀ * diagonal d * V) = Vᵀ * diagonal (fun i => d i * d i) * V := by
  constructor
  · simp [transpose_mul, Matrix.mul_assoc]
  · calc Vᵀ * diagonal d * V * (Vᵀ * diagonal d * V) = Vᵀ * diagonal d * (V * Vᵀ) * diagonal d * V := by
          simp only [Matrix.mul_assoc]
      _ = _ := by rw [hV, Matrix.mul_one, Matrix.mul_assoc Vᵀ, diagonal_mul_diagonal]

/-- **C30** `get_sqrtm()`: defined exactly for positive semidefinite `A` (otherwise a square root of a negative number is
taken) and then the symmetric positive semidefinite square root; in particular `MᵀM = A`. -/
theorem c30_sqrtm (s : St) (A : Matrix (Fin s.n) (Fin s.n) ℝ)
    (h : IsEigen A (asM s.n s.n s.evectors) (asV s.n s.evalues)) (v : Vec ℝ) (m1 m2 : Mat ℝ) :
    ((getSqrtm s v m1 m2).isSome = true ↔ SymPosSemidef A) ∧
    (∀ M, getSqrtm s v m1 m2 = some M → SymPosSemidef (asM s.n s.n M) ∧
      (asM s.n s.n M)ᵀ * asM s.n s.n M = A ∧ asM s.n s.n M * asM s.n s.n M = A) := by
  rw [← possemidef_iff h]
  by_cases hp : ∀ i, 0 ≤ asV s.n s.evalues i
  · obtain ⟨d, h1, h2⟩ := forNM_total (fun k (d : Vec ℝ) => ∀ i : Fin s.n, i < k → d i = Real.sqrt (s.evalues i)) s.n
      (fun i d => (sqrtC (s.evalues i)).map (Vec.set d i)) v (fun i hi => absurd hi (Nat.not_lt_zero i)) (by
        intro i t hi ht
        have hs : sqrtC (s.evalues i) = some (Real.sqrt (s.evalues i)) := if_neg (not_lt.2 (hp ⟨i, hi⟩))
        refine ⟨Vec.set t i (Real.sqrt (s.evalues i)), by rw [hs]; rfl, ?_⟩
        intro j hj
        by_cases e : j.1 = i
        · rw [e, Vec.set_self]
        · rw [Vec.set_ne _ _ _ _ e]; exact ht j (by omega))
    have hg : getSqrtm s v m1 m2 = some (mulMM s.n s.n s.n (Mat.T s.evectors) (diagmultVM s.n s.n d s.evectors m1) m2) := by
      unfold getSqrtm; rw [h1]; rfl
    have e1 : asV s.n d = fun i : Fin s.n => Real.sqrt (s.evalues i) := funext fun i => h2 i i.2
    refine ⟨⟨fun _ => hp, fun _ => by rw [hg]; rfl⟩, ?_⟩
    intro M hM
    rw [hg] at hM
    have hM' := congrArg (asM s.n s.n) (Option.some.inj hM)
    rw [Ops.c09_mul_matrix, asM_diagmultVM, WLS.asM_T, ← Matrix.mul_assoc, e1] at hM'
    rw [← hM']
    obtain ⟨a, b⟩ := sandwich_sq h.orth (fun i : Fin s.n => Real.sqrt (s.evalues i))
    have b' : _ = A := b.trans (by
      rw [← h.prod]; congr 2; congr 1; funext i; exact Real.mul_self_sqrt (hp i))
    refine ⟨(possemidef_iff ⟨h.orth, rfl, ?_⟩).1 (fun i => Real.sqrt_nonneg _), by rw [a]; exact b', b'⟩
    intro i j hij
    exact Real.sqrt_le_sqrt (h.asc hij)
  · have hg : getSqrtm s v m1 m2 = none := by
      unfold getSqrtm
      rw [Option.map_eq_none_iff]
      rcases hr : forNM s.n (fun i d => (sqrtC (s.evalues i)).map (Vec.set d i)) v with _ | d
      · rfl
      · exfalso
        apply hp
        have := forNM_inv (fun k (_ : Vec ℝ) => ∀ i : Fin s.n, i < k → 0 ≤ s.evalues i) s.n _ v d
          (fun i hi => absurd hi (Nat.not_lt_zero i)) (by
            intro i t t' hi ht hf j hj
            by_cases e : j.1 = i
            · by_contra hneg
              rw [e] at hneg
              have : sqrtC (s.evalues i) = none := if_pos (not_le.1 hneg)
              rw [this] at hf; cases hf
            · exact ht j (by omega)) hr
        exact fun i => this i i.2
    rw [hg]
    exact ⟨⟨fun h => (nomatch h), fun h => absurd h hp⟩, fun M hM => (nomatch hM)⟩

/-- **C30** `get_isqrtm(condition)` for positive semidefinite `A`: never fails; the result `M` is symmetric and `MᵀM` is the
pseudo-inverse of the matrix truncated at `condition` *for the square roots* (`|√l_j| < |√l_i| * condition`). -/
theorem c30_isqrtm (s : St) (A : Matrix (Fin s.n) (Fin s.n) ℝ) (hn : 1 ≤ s.n)
    (h : IsEigen A (asM s.n s.n s.evectors) (asV s.n s.evalues)) (hp : SymPosSemidef A) (condition : ℝ)
    (v : Vec ℝ) (m1 m2 : Mat ℝ) :
    ∃ M, getIsqrtm s condition v m1 m2 = some M ∧ (asM s.n s.n M)ᵀ = asM s.n s.n M ∧
      ((∀ i : Fin s.n, s.evalues i ≠ 0 →
          Kept (fun i : Fin s.n => Real.sqrt (s.evalues i)) condition i) →
        MoorePenrose A ((asM s.n s.n M)ᵀ * asM s.n s.n M) ∧
        (A.det ≠ 0 → (asM s.n s.n M)ᵀ * asM s.n s.n M = A⁻¹)) := by
  classical
  have hp' := (possemidef_iff h).2 hp
  have h0 : ∀ i, i < s.n → 0 ≤ s.evalues i := fun i hi => hp' ⟨i, hi⟩
  have hneg : ¬ (-(s.evalues 0) > s.evalues (s.n - 1)) := by
    have := h0 0 (by omega); have := h0 (s.n - 1) (by omega)
    intro hh; linarith
  have hmax : (if -(s.evalues 0) > s.evalues (s.n - 1) then (sqrtC (s.evalues 0)).map (fun x => -x)
      else sqrtC (s.evalues (s.n - 1))) = some (Real.sqrt (s.evalues (s.n - 1))) := by
    rw [if_neg hneg]; exact if_neg (not_lt.2 (h0 _ (by omega)))
  have hkept : ∀ i : Fin s.n, Kept (fun i : Fin s.n => Real.sqrt (s.evalues i)) condition i ↔
      |Real.sqrt (s.evalues i)| * condition > Real.sqrt (s.evalues (s.n - 1)) := by
    intro i
    constructor
    · intro hk
      have := hk ⟨s.n - 1, by omega⟩
      rwa [abs_of_nonneg (Real.sqrt_nonneg _)] at this
    · intro hk j
      rw [abs_of_nonneg (Real.sqrt_nonneg _)]
      refine lt_of_le_of_lt (Real.sqrt_le_sqrt ?_) hk
      exact h.asc (show j ≤ (⟨s.n - 1, by omega⟩ : Fin s.n) from by have := j.2; show j.1 ≤ s.n - 1; omega)
  let d' : Fin s.n → ℝ := fun i => if Kept (fun i : Fin s.n => Real.sqrt (s.evalues i)) condition i
    then (Real.sqrt (s.evalues i))⁻¹ else 0
  obtain ⟨d, h1, h2⟩ := forNM_total (fun k (d : Vec ℝ) => ∀ i : Fin s.n, i < k → d i = d' i) s.n
      (isqrtStep s condition (Real.sqrt (s.evalues (s.n - 1)))) v (fun i hi => absurd hi (Nat.not_lt_zero i)) (by
        intro i t hi ht
        have hs : sqrtC (s.evalues i) = some (Real.sqrt (s.evalues i)) := if_neg (not_lt.2 (h0 i hi))
        unfold isqrtStep
        rw [hs]
        simp only [Option.bind_some, Vec.set_self]
        by_cases hc : |Real.sqrt (s.evalues i)| * condition > Real.sqrt (s.evalues (s.n - 1))
        · have hz : Real.sqrt (s.evalues i) ≠ 0 := by
            intro hz; rw [hz, abs_zero, zero_mul] at hc
            exact absurd hc (not_lt.2 (Real.sqrt_nonneg _))
          refine ⟨_, by rw [if_pos hc, if_neg hz], ?_⟩
          intro j hj
          by_cases e : j.1 = i
          · have : j = ⟨i, hi⟩ := Fin.ext e
            subst this
            simp only [d']
            rw [Vec.set_self, if_pos ((hkept _).2 hc), one_div]
          · rw [Vec.set_ne _ _ _ _ e, Vec.set_ne _ _ _ _ e]; exact ht j (by omega)
        · refine ⟨_, by rw [if_neg hc], ?_⟩
          intro j hj
          by_cases e : j.1 = i
          · have : j = ⟨i, hi⟩ := Fin.ext e
            subst this
            simp only [d']
            rw [Vec.set_self, if_neg (fun hk => hc ((hkept _).1 hk))]
          · rw [Vec.set_ne _ _ _ _ e, Vec.set_ne _ _ _ _ e]; exact ht j (by omega))
  have hg : getIsqrtm s condition v m1 m2 = some (mulMM s.n s.n s.n (Mat.T s.evectors) (diagmultVM s.n s.n d s.evectors m1) m2) := by
    unfold getIsqrtm; rw [hmax, Option.bind_some, h1]; rfl
  have e1 : asV s.n d = d' := funext fun i => h2 i i.2
  refine ⟨_, hg, ?_⟩
  rw [Ops.c09_mul_matrix, asM_diagmultVM, WLS.asM_T, ← Matrix.mul_assoc, e1]
  obtain ⟨a, b⟩ := sandwich_sq h.orth d'
  refine ⟨a, fun hk => ?_⟩
  rw [a, b]
  have hd : ∀ i, d' i * d' i = (s.evalues i)⁻¹ := by
    intro i
    simp only [d']
    by_cases hz : s.evalues i = 0
    · rw [hz]; simp
    · rw [if_pos (hk i hz), ← mul_inv, Real.mul_self_sqrt (h0 i i.2)]
  have hmp : MoorePenrose A ((asM s.n s.n s.evectors)ᵀ * diagonal (fun i => d' i * d' i) * asM s.n s.n s.evectors) := by
    have := moorePenrose_of_svd (U := (asM s.n s.n s.evectors)ᵀ) (VT := asM s.n s.n s.evectors)
      (by rw [transpose_transpose]; exact h.orth) h.orth (asV s.n s.evalues) (fun i => d' i * d' i) (by
        intro i; rw [hd]
        by_cases hz : s.evalues i = 0
        · simp [hz]
        · rw [asV_apply, mul_inv_cancel₀ hz, one_mul]) (by
        intro i; rw [hd]
        by_cases hz : s.evalues i = 0
        · simp [hz]
        · rw [asV_apply, inv_mul_cancel₀ hz, one_mul])
    rw [h.prod, transpose_transpose] at this
    exact this
  refine ⟨hmp, fun hdet => ?_⟩
  have hu : IsUnit A.det := isUnit_iff_ne_zero.2 hdet
  calc _ = (A⁻¹ * A) * ((asM s.n s.n s.evectors)ᵀ * diagonal (fun i => d' i * d' i) * asM s.n s.n s.evectors) * (A * A⁻¹) := by
        rw [nonsing_inv_mul _ hu, mul_nonsing_inv _ hu, Matrix.one_mul, Matrix.mul_one]
    _ = A⁻¹ * (A * ((asM s.n s.n s.evectors)ᵀ * diagonal (fun i => d' i * d' i) * asM s.n s.n s.evectors) * A) * A⁻¹ := by
        simp only [Matrix.mul_assoc]
    _ = A⁻¹ := by rw [hmp.axa, nonsing_inv_mul _ hu, Matrix.one_mul]

/-- the hypotheses are met by a concrete state: `diag(-1, 4)` with the standard basis; the default threshold keeps both
eigenvalues -/
example : let s : St := ⟨2, ident, fun i => if i = 0 then -1 else 4⟩
    IsEigen (diagonal ![(-1 : ℝ), 4]) (asM s.n s.n s.evectors) (asV s.n s.evalues) ∧
    KeepsNonzero (asV s.n s.evalues) conditionNo ∧ isPosdef s = false := by
  intro s
  have hI : asM 2 2 ident = 1 := by ext i j; fin_cases i <;> fin_cases j <;> simp [ident]
  refine ⟨⟨?_, ?_, ?_⟩, ?_, ?_⟩
  · show asM 2 2 ident * (asM 2 2 ident)ᵀ = 1
    rw [hI]; simp
  · show (asM 2 2 ident)ᵀ * _ * asM 2 2 ident = _
    rw [hI]; ext i j; fin_cases i <;> fin_cases j <;> simp [s]
  · intro i j hij
    fin_cases i <;> fin_cases j <;> simp [s] at hij ⊢ <;> norm_num
  · intro i _ j
    fin_cases i <;> fin_cases j <;> norm_num [s, conditionNo]
  · simp [isPosdef, s, forNM]

end TooN.SymEigen
