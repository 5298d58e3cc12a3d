import Verif.Proof.LU
import Mathlib.Data.Rat.Defs
import Mathlib.Tactic.FinCases
import Mathlib.Tactic.NormNum
/-!
# C19: LU

For any LAPACK satisfying its documented contract (`LapackOK`; `lapackOK_exists` shows that the contract can be
met), for every size, matrix, right hand side and pivot sequence.
-/
set_option linter.unusedSectionVars false
namespace TooN.LU
open Finset
variable {K : Type _} [Field K]

/-- the contract is satisfiable -/
theorem c19_contract_satisfiable : ∃ lp : Lapack K, LapackOK lp := lapackOK_exists

/-- **C19** `determinant()` is the determinant, for every matrix (singular ones too). -/
theorem c19_determinant (lp : Lapack K) (h : LapackOK lp) (n : Nat) (A : Mat K) :
    determinant n (compute lp n A) = (asM n n A).det := by
  obtain ⟨h1, h2⟩ := h.getrf n (pack n A)
  have hd := det_interchanges n _ h1 (fview n (pack n A)) (compute lp n A) rfl
  rw [h2, Matrix.det_mul, det_unitLowerPart, one_mul, det_upperPart, asM_fview_pack, Matrix.det_transpose] at hd
  have hsq : getSign n (compute lp n A) * getSign n (compute lp n A) = 1 := by
    unfold getSign
    refine forN_inv (fun _ x => x * x = 1) (n-1) _ (1:K) (one_mul 1) ?_
    intro i t _ ht
    split
    · rw [neg_mul_neg]; exact ht
    · exact ht
  rw [determinant_eq]
  show _ * ∏ i : Fin n, fview n (lp.getrf n n (pack n A) n).1 i i = _
  rw [hd, ← mul_assoc, hsq, one_mul]

/-- the pivots of an invertible matrix do not vanish -/
theorem diag_ne_zero (lp : Lapack K) (h : LapackOK lp) (n : Nat) (A : Mat K) (hA : (asM n n A).det ≠ 0) :
    ∀ i, i < n → fview n (compute lp n A).lu i i ≠ 0 := by
  intro i hi h0
  apply hA
  rw [← c19_determinant lp h, determinant_eq]
  rw [Finset.prod_eq_zero (Finset.mem_univ (⟨i, hi⟩ : Fin n)) h0, mul_zero]

/-- **C19** `backsub(v)` solves `A x = v`. -/
theorem c19_backsub_vector (lp : Lapack K) (h : LapackOK lp) (n : Nat) (A : Mat K) (hA : (asM n n A).det ≠ 0)
    (rhs : Vec K) :
    (asM n n A).mulVec (asV n (backsubV lp n (compute lp n A) rhs)) = asV n rhs := by
  obtain ⟨h1, h2⟩ := h.getrf n (pack n A)
  have hd := diag_ne_zero lp h n A hA
  set s := compute lp n A
  set b1 := lp.trsm 'R' 'U' 'N' 'N' 1 n 1 s.lu n (fun k => rhs k) 1 with hb1
  set b2 := lp.trsm 'R' 'L' 'N' 'U' 1 n 1 s.lu n b1 1 with hb2
  have e1 := h.trsmRU 1 n s.lu (fun k => rhs k) n 1 le_rfl le_rfl hd
  have e2 := h.trsmRL 1 n s.lu b1 n 1 le_rfl le_rfl
  rw [← hb1] at e1
  rw [← hb2] at e2
  have row : ∀ b : Buf K, ∀ i : Fin n, asM 1 n (fview 1 b) 0 i = b i := by
    intro b i; rw [asM_apply]; show b (i * 1 + 0) = b i; congr 1; omega
  have key := solve_core n (fview n (pack n A)) s.ipiv h1 _ _ h2 b2 (asV n rhs) (by
    have v2 : Matrix.vecMul (asV n b2) (unitLowerPart n (fview n s.lu)) = asV n b1 := by
      funext i
      have := congrFun (congrFun e2 0) i
      rw [row, Matrix.mul_apply] at this
      simp only [row] at this
      exact this
    have v1 : Matrix.vecMul (asV n b1) (upperPart n (fview n s.lu)) = asV n rhs := by
      funext i
      have := congrFun (congrFun e1 0) i
      rw [row, Matrix.mul_apply] at this
      simp only [row] at this
      exact this
    exact (congrArg (fun z => Matrix.vecMul z (upperPart n (fview n s.lu))) v2).trans v1)
  rw [asM_fview_pack, Matrix.transpose_transpose] at key
  exact key

/-- the two triangular solves of `backsub(M)`, column by column -/
theorem backsubM_cols (lp : Lapack K) (h : LapackOK lp) (n : Nat) (A : Mat K) (hA : (asM n n A).det ≠ 0)
    (cols : Nat) (rhs : Mat K) (j : Nat) (hj : j < cols) :
    let s := compute lp n A
    let b1 := lp.trsm 'R' 'U' 'N' 'N' cols n 1 s.lu n (pack cols rhs) cols
    let b2 := lp.trsm 'R' 'L' 'N' 'U' cols n 1 s.lu n b1 cols
    Matrix.vecMul (Matrix.vecMul (asV n (fun i => cview cols b2 i j)) (unitLowerPart n (fview n s.lu)))
      (upperPart n (fview n s.lu)) = asV n (fun i => rhs i j) := by
  intro s b1 b2
  have hd := diag_ne_zero lp h n A hA
  have e1 := h.trsmRU cols n s.lu (pack cols rhs) n cols le_rfl le_rfl hd
  have e2 := h.trsmRL cols n s.lu b1 n cols le_rfl le_rfl
  have v2 : Matrix.vecMul (asV n (fun i => cview cols b2 i j)) (unitLowerPart n (fview n s.lu)) =
      asV n (fun i => cview cols b1 i j) := by
    funext i
    exact congrFun (congrFun e2 ⟨j, hj⟩) i
  have v1 : Matrix.vecMul (asV n (fun i => cview cols b1 i j)) (upperPart n (fview n s.lu)) =
      asV n (fun i => rhs i j) := by
    funext i
    refine (congrFun (congrFun e1 ⟨j, hj⟩) i).trans ?_
    exact cview_pack cols rhs i j hj
  rw [v2, v1]

/-- **C19** `backsub(M)` solves `A X = M` when the number of columns of `M` is part of its type. -/
theorem c19_backsub_matrix_partial (lp : Lapack K) (h : LapackOK lp) (n : Nat) (A : Mat K)
    (hA : (asM n n A).det ≠ 0) (cols : Nat) (rhs : Mat K) :
    asM n n A * asM n cols (backsubM lp n (compute lp n A) cols cols rhs) = asM n cols rhs := by
  obtain ⟨h1, h2⟩ := h.getrf n (pack n A)
  ext i j
  have key := solve_core n (fview n (pack n A)) (compute lp n A).ipiv h1 _ _ h2 _ _
    (backsubM_cols lp h n A hA cols rhs j j.2)
  rw [asM_fview_pack, Matrix.transpose_transpose] at key
  have hi := congrFun key i
  rw [asM_apply]
  refine Eq.trans ?_ hi
  rw [Matrix.mul_apply]
  simp only [Matrix.mulVec, dotProduct]
  refine Finset.sum_congr rfl fun k _ => ?_
  congr 1
  exact swapLoopM_col n cols _ _ j j.2 k

/-- **C19** a dynamically sized right hand side (`NRHS = -1`): the row swaps are skipped, so the result is
right only up to them: it is right when no row was interchanged. -/
theorem c19_backsub_dynamic_partial (lp : Lapack K) (h : LapackOK lp) (n : Nat) (A : Mat K)
    (hA : (asM n n A).det ≠ 0) (cols : Nat) (rhs : Mat K)
    (hp : ∀ i, i < n → (compute lp n A).ipiv i = i + 1) :
    asM n n A * asM n cols (backsubM lp n (compute lp n A) (-1) cols rhs) = asM n cols rhs := by
  rw [← c19_backsub_matrix_partial lp h n A hA cols rhs]
  congr 1
  rw [asM_eq_iff]
  intro i j hi hj
  have hneg : ∀ (m : Nat) (ip : Nat → Nat) (B : Mat K), swapLoopM m (-1) ip B = B := by
    intro m ip B
    unfold swapLoopM
    induction m with
    | zero => rfl
    | succ m ih => rw [forDown_succ]; exact ih
  have hid : ∀ (m : Nat), m ≤ n → ∀ (x : Vec K), swapLoopV m (compute lp n A).ipiv x = x := by
    intro m hm x
    unfold swapLoopV
    induction m with
    | zero => rfl
    | succ m ih =>
      rw [forDown_succ]
      have : Vec.set (Vec.set x m (x ((compute lp n A).ipiv m - 1))) ((compute lp n A).ipiv m - 1) (x m) = x := by
        rw [hp m (by omega)]
        funext r
        rw [swapV_eq]
        congr 1
        unfold sw; split_ifs <;> omega
      exact (congrArg _ this).trans (ih (by omega))
  rw [backsubM, backsubM, hneg, swapLoopM_col n cols _ _ j hj i, hid n le_rfl]

/-- **C19** the full claim fails for dynamically sized right hand sides: for `A = [[0,1],[1,0]]` and *any*
LAPACK meeting its contract, `backsub` of the column `(1,0)` does not solve the system. -/
theorem c19_backsub_dynamic_wrong :
    ∃ (A rhs : Mat ℚ), (asM 2 2 A).det ≠ 0 ∧ ∀ lp : Lapack ℚ, LapackOK lp →
      asM 2 2 A * asM 2 1 (backsubM lp 2 (compute lp 2 A) (-1) 1 rhs) ≠ asM 2 1 rhs := by
  let A : Mat ℚ := fun r c => if r = c then 0 else 1
  let rhs : Mat ℚ := fun r _ => if r = 0 then 1 else 0
  have hdet : (asM 2 2 A).det ≠ 0 := by rw [Matrix.det_fin_two]; simp [A]
  refine ⟨A, rhs, hdet, ?_⟩
  intro lp h heq
  have hcols := backsubM_cols lp h 2 A hdet 1 rhs 0 (by omega)
  obtain ⟨h1, h2⟩ := h.getrf 2 (pack 2 A)
  set s := compute lp 2 A with hs
  have hs2 : (lp.getrf 2 2 (pack 2 A) 2).2 = s.ipiv := rfl
  have hs1 : (lp.getrf 2 2 (pack 2 A) 2).1 = s.lu := rfl
  rw [hs2, hs1] at h2
  rw [hs2] at h1
  -- the interchanged matrix must be the identity
  have hF : ∀ r c, c < 2 → r < 2 → fview 2 (pack 2 A) r c = if r = c then 0 else 1 := by
    intro r c _ hr
    have := cview_pack 2 A c r hr
    show cview 2 (pack 2 A) c r = _
    rw [this]; simp [A, eq_comm]
  have hp0 : s.ipiv 0 = 2 := by
    have b0 := h1 0 (by omega)
    have b1 := h1 1 (by omega)
    by_contra hne
    have e0 : s.ipiv 0 = 1 := by omega
    have e1 : s.ipiv 1 = 2 := by omega
    have q00 := congrFun (congrFun h2 0) 0
    have q10 := congrFun (congrFun h2 1) 0
    simp only [interchanges, forN_succ, forN_zero, asM_apply, interchange_eq, e0, e1, Matrix.mul_apply,
      Fin.sum_univ_two, unitLowerPart, upperPart, Matrix.of_apply] at q00 q10
    have a0 : sw 0 0 (sw 1 1 0) = 0 := rfl
    have a1 : sw 0 0 (sw 1 1 1) = 1 := rfl
    simp [a0, a1, hF] at q00 q10
    rw [← q00] at q10
    simp at q10
  have e1 : s.ipiv 1 = 2 := by have := h1 1 (by omega); omega
  have hone : unitLowerPart 2 (fview 2 s.lu) * upperPart 2 (fview 2 s.lu) = 1 := by
    rw [← h2]
    ext i j
    rw [asM_apply, interchanges, forN_succ, forN_succ, forN_zero, interchange_eq, interchange_eq, hp0, e1]
    fin_cases i <;> fin_cases j
    · show fview 2 (pack 2 A) 1 0 = 1; rw [hF _ _ (by omega) (by omega)]; rfl
    · show fview 2 (pack 2 A) 1 1 = 0; rw [hF _ _ (by omega) (by omega)]; rfl
    · show fview 2 (pack 2 A) 0 0 = 0; rw [hF _ _ (by omega) (by omega)]; rfl
    · show fview 2 (pack 2 A) 0 1 = 1; rw [hF _ _ (by omega) (by omega)]; rfl
  dsimp only at hcols
  rw [Matrix.vecMul_vecMul, hone, Matrix.vecMul_one] at hcols
  have r0 := congrFun hcols 0
  have r1 := congrFun hcols 1
  have g0 := congrFun (congrFun heq 0) 0
  rw [Matrix.mul_apply, Fin.sum_univ_two] at g0
  have c1 : asM 2 1 (backsubM lp 2 s (-1) 1 rhs) 1 0 = 0 := r1.trans (by simp [rhs])
  rw [c1] at g0
  simp [A, rhs] at g0

/-- **C19** `get_inverse()` is the inverse. -/
theorem c19_inverse (lp : Lapack K) (h : LapackOK lp) (n : Nat) (A : Mat K) (hA : (asM n n A).det ≠ 0) :
    asM n n (getInverse lp n (compute lp n A)) = (asM n n A)⁻¹ := by
  have e := h.getri n (pack n A) (diag_ne_zero lp h n A hA)
  rw [asM_fview_pack] at e
  have : asM n n A * asM n n (getInverse lp n (compute lp n A)) = 1 := by
    rw [← Matrix.transpose_inj, Matrix.transpose_mul, Matrix.transpose_one]
    exact e
  exact (Matrix.inv_eq_right_inv this).symm

/-- **C19** what `get_lu()` holds: its lower triangle *with* diagonal `L'` and its upper triangle with *unit*
diagonal `U'` satisfy `A = L' U' P` with `P` a permutation of the columns (the comment at LU.h:170-174 has the
unit diagonal on the other factor). -/
theorem c19_get_lu (lp : Lapack K) (h : LapackOK lp) (n : Nat) (A : Mat K) :
    ∃ σ : Nat → Nat, (∀ c, c < n → σ c < n) ∧
      (asM n n fun r c => A r (σ c)) =
        (Matrix.of fun i j : Fin n => if j ≤ i then getLu n (compute lp n A) i j else 0) *
        (Matrix.of fun i j : Fin n => if i < j then getLu n (compute lp n A) i j else if i = j then 1 else 0) := by
  obtain ⟨h1, h2⟩ := h.getrf n (pack n A)
  obtain ⟨ρ, hρ, hρ2⟩ := interchanges_perm (K := K) n _ h1
  refine ⟨ρ, hρ, ?_⟩
  have ht := congrArg Matrix.transpose h2
  rw [Matrix.transpose_mul] at ht
  have hl : (asM n n fun r c => A r (ρ c)) =
      (asM n n (interchanges n (lp.getrf n n (pack n A) n).2 (fview n (pack n A)))).transpose := by
    ext i j
    rw [asM_apply, Matrix.transpose_apply, asM_apply, hρ2]
    exact (cview_pack n A i (ρ j) (hρ j j.2)).symm
  rw [hl, ht]
  congr 1
  ext i j
  simp only [Matrix.transpose_apply, unitLowerPart, Matrix.of_apply]
  by_cases e : i < j
  · rw [if_pos e, if_pos e]; rfl
  · rw [if_neg e, if_neg e]
    by_cases e2 : i = j
    · rw [if_pos e2, if_pos e2.symm]
    · rw [if_neg e2, if_neg (fun h => e2 h.symm)]

/-- a matrix meeting the hypotheses of the solve theorems that needs a row interchange -/
example : (asM 2 2 (fun r c => if r = c then (0:ℚ) else 1)).det ≠ 0 := by
  rw [Matrix.det_fin_two]; simp

end TooN.LU
