import Verif.Spec.LapackChol
import Verif.Proof.LU
import Verif.Props.Cholesky
import Verif.Props.Ops
import Mathlib.LinearAlgebra.Matrix.NonsingularInverse
import Mathlib.LinearAlgebra.Matrix.Block
import Mathlib.Tactic.Linarith
/-!
# C56: Lapack_Cholesky

For any LAPACK that meets its documented contract.  `A` below is the symmetric matrix given by the **upper** half of the argument.
-/
set_option linter.unusedSectionVars false
set_option linter.unusedVariables false
namespace TooN.LapackChol
open LU (Buf cview fview pack)
open Finset Matrix
noncomputable section

theorem copyL_apply (n : Nat) (b : Buf ℝ) (chol : Mat ℝ) (i j : Nat) (hi : i < n) (hj : j < n) :
    copyL n b chol i j = if j ≤ i then cview n b j i else 0 := by
  have key := forN_inv (fun k (X : Mat ℝ) => ∀ i j, i < k → j < n → X i j = if j ≤ i then cview n b j i else 0) n
    (fun i chol =>
      let chol := forN (i + 1) (fun j chol => Mat.set chol i j (cview n b j i)) chol
      forRange (i + 1) n (fun j chol => Mat.set chol i j 0) chol) chol (fun i j h _ => absurd h (Nat.not_lt_zero i)) ?_
  · exact key i j hi hj
  intro k X hk hX
  have h1 := forN_inv (fun m (Y : Mat ℝ) => (∀ a c, a ≠ k → Y a c = X a c) ∧ ∀ c, c < m → Y k c = cview n b c k) (k + 1)
    (fun j chol => Mat.set chol k j (cview n b j k)) X ⟨fun _ _ _ => rfl, fun c h => absurd h (Nat.not_lt_zero c)⟩ (by
      rintro m Y hm ⟨y1, y2⟩
      refine ⟨fun a c ha => ?_, fun c hc => ?_⟩
      · rw [Mat.set_ne _ _ _ _ _ _ (fun h => ha h.1)]; exact y1 a c ha
      · by_cases e : c = m
        · subst e; rw [Mat.set_self]
        · rw [Mat.set_ne _ _ _ _ _ _ (fun h => e h.2)]; exact y2 c (by omega))
  have h2 := forRange_inv (fun m (Y : Mat ℝ) => (∀ a c, a ≠ k → Y a c = X a c) ∧ ∀ c, c < m → Y k c = if c ≤ k then cview n b c k else 0) (k + 1) n (by omega)
    (fun j chol => Mat.set chol k j 0) (forN (k + 1) (fun j chol => Mat.set chol k j (cview n b j k)) X)
    ⟨h1.1, fun c h => by rw [if_pos (by omega)]; exact h1.2 c h⟩ (by
      rintro m Y hm hm' ⟨y1, y2⟩
      refine ⟨fun a c ha => ?_, fun c hc => ?_⟩
      · rw [Mat.set_ne _ _ _ _ _ _ (fun h => ha h.1)]; exact y1 a c ha
      · by_cases e : c = m
        · subst e; rw [Mat.set_self, if_neg (by omega)]
        · rw [Mat.set_ne _ _ _ _ _ _ (fun h => e h.2)]; exact y2 c (by omega))
  intro i j hi hj
  by_cases e : i = k
  · subst e; exact h2.2 j hj
  · exact (h2.1 i j e).trans (hX i j (by omega) hj)

theorem asM_copyL (n : Nat) (b : Buf ℝ) (chol : Mat ℝ) : asM n n (copyL n b chol) = lowerPart n (fview n b) := by
  ext i j
  rw [asM_apply, copyL_apply n b chol i j i.2 j.2]
  rfl

theorem lowerSym_pack (n k : Nat) (hk : k ≤ n) (m : Mat ℝ) : asM k k (lowerSym (fview n (pack n m))) = asM k k (upperSym m) := by
  rw [asM_eq_iff]
  intro i j hi hj
  simp only [lowerSym, upperSym]
  by_cases h : j ≤ i
  · rw [if_pos h]
    show cview n (pack n m) j i = _
    rw [LU.cview_pack n m j i (by omega)]
    by_cases h' : i ≤ j
    · obtain rfl : i = j := by omega
      rw [if_pos le_rfl]
    · rw [if_neg h']
  · rw [if_neg h, if_pos (by omega)]
    show cview n (pack n m) i j = _
    rw [LU.cview_pack n m i j (by omega)]

theorem lowerPart_det (n : Nat) (A : Mat ℝ) : (lowerPart n A).det = ∏ i : Fin n, A i i := by
  rw [Matrix.det_of_isLowerTriangular]
  · exact Finset.prod_congr rfl (fun i _ => by rw [lowerPart, Matrix.of_apply, if_pos le_rfl])
  · intro i j h
    have h : i < j := h
    rw [lowerPart, Matrix.of_apply, if_neg (not_le.mpr h)]

/-- `L Lᵀ` with nonzero diagonal is positive definite -/
theorem posdef_of_factor (n : Nat) (A : Mat ℝ) (h : ∀ i, i < n → 0 < A i i) :
    SymPosDef (lowerPart n A * (lowerPart n A).transpose) := by
  refine ⟨by rw [transpose_mul, transpose_transpose], fun x hx => ?_⟩
  have e : dotProduct x ((lowerPart n A * (lowerPart n A).transpose).mulVec x) = dotProduct ((lowerPart n A).transpose.mulVec x) ((lowerPart n A).transpose.mulVec x) := by
    rw [← Matrix.mulVec_mulVec, Matrix.dotProduct_mulVec, Matrix.mulVec_transpose]
  rw [e]
  have hne : (lowerPart n A).transpose.mulVec x ≠ 0 := by
    intro h0
    have hd : IsUnit (lowerPart n A).transpose.det := by
      rw [det_transpose, lowerPart_det]
      exact (Finset.prod_ne_zero_iff.mpr (fun (i : Fin n) _ => (h i i.2).ne')).isUnit
    apply hx
    have := congrArg (((lowerPart n A).transpose)⁻¹.mulVec) h0
    rwa [Matrix.mulVec_mulVec, Matrix.nonsing_inv_mul _ hd, Matrix.one_mulVec, Matrix.mulVec_zero] at this
  obtain ⟨i, hi⟩ : ∃ i, (lowerPart n A).transpose.mulVec x i ≠ 0 := by
    by_contra hcon
    push Not at hcon
    exact hne (funext hcon)
  rw [dotProduct]
  refine lt_of_lt_of_le (mul_self_pos.mpr hi) ?_
  exact Finset.single_le_sum (f := fun i => (lowerPart n A).transpose.mulVec x i * (lowerPart n A).transpose.mulVec x i) (fun j _ => mul_self_nonneg _) (Finset.mem_univ i)

/-- leading blocks of a positive definite matrix are positive definite -/
theorem posdef_leading (n k : Nat) (hk : k ≤ n) (B : Mat ℝ) (h : SymPosDef (asM n n B)) : SymPosDef (asM k k B) := by
  refine ⟨?_, fun x hx => ?_⟩
  · ext i j
    exact congrFun (congrFun h.1 ⟨i, by omega⟩) ⟨j, by omega⟩
  · obtain ⟨X, hX, hQ⟩ := Chol.quad_pad n k hk B x
    rw [← hQ]
    exact h.2 X (hX hx)

section
variable (lp : Lapack) (h : LapackOK lp) (n : Nat) (m : Mat ℝ)

/-- the result of the constructor, for every matrix -/
theorem construct_cases (h : LapackOK lp) (chol : Mat ℝ) : ∃ st, doCompute lp n (pack n m) chol = some st ∧
    ((st.rank = n ∧ SymPosDef (asM n n (upperSym m)) ∧ asM n n (getL st) = lowerPart n (fview n st.lapack) ∧ (∀ i, i < n → 0 < fview n st.lapack i i) ∧
        lowerPart n (fview n st.lapack) * (lowerPart n (fview n st.lapack)).transpose = asM n n (upperSym m)) ∨
      (∃ k : Nat, k < n ∧ st.rank = k ∧ SymPosDef (asM k k (upperSym m)) ∧ ¬ SymPosDef (asM (k + 1) (k + 1) (upperSym m)))) := by
  rcases h.potrf n (pack n m) with ⟨h1, h2, h3⟩ | ⟨i, h1, h2, h3, h4, h5⟩
  · refine ⟨{ chol := copyL n (lp.potrf n (pack n m) n).1 chol, lapack := (lp.potrf n (pack n m) n).1, rank := n },
      by simp only [doCompute, h1, ge_iff_le, le_refl, if_true, gt_iff_lt, lt_irrefl, if_false], Or.inl ⟨rfl, ?_, asM_copyL n _ _, h2, ?_⟩⟩
    · rw [← lowerSym_pack n n le_rfl, ← h3]; exact posdef_of_factor n _ h2
    · rw [h3, lowerSym_pack n n le_rfl]
  · refine ⟨{ chol := copyL n (lp.potrf n (pack n m) n).1 chol, lapack := (lp.potrf n (pack n m) n).1, rank := i - 1 },
      by simp only [doCompute, h3]; rw [if_pos (by omega), if_pos (by omega)], Or.inr ⟨i - 1, by omega, by simp only; omega, ?_, ?_⟩⟩
    · rwa [lowerSym_pack n _ (by omega)] at h4
    · rw [Nat.sub_add_cancel h1]; rwa [lowerSym_pack n _ h2] at h5

/-- **C56** the constructor never fails an assertion; `rank()` is the size exactly for positive definite matrices, otherwise it is
the order of the largest leading block that is positive definite, all larger ones not being so. -/
theorem c56_rank (h : LapackOK lp) : ∃ st, construct lp n m = some st ∧ 0 ≤ st.rank ∧ st.rank ≤ n ∧
    (st.rank = n ↔ SymPosDef (asM n n (upperSym m))) ∧
    ∀ k : Nat, k ≤ n → ((k : Int) ≤ st.rank ↔ SymPosDef (asM k k (upperSym m))) := by
  obtain ⟨st, h1, h2⟩ := construct_cases lp n m h m
  have key : 0 ≤ st.rank ∧ st.rank ≤ n ∧ ∀ k : Nat, k ≤ n → ((k : Int) ≤ st.rank ↔ SymPosDef (asM k k (upperSym m))) := by
    rcases h2 with ⟨a1, a2, a3, a4, a5⟩ | ⟨k, a1, a2, a3, a4⟩
    · exact ⟨by omega, by omega, fun k hk => ⟨fun _ => posdef_leading n k hk _ a2, fun _ => by omega⟩⟩
    · refine ⟨by omega, by omega, fun j hj => ⟨fun hjk => posdef_leading k j (by omega) _ a3, fun hp => ?_⟩⟩
      by_contra hcon
      exact a4 (posdef_leading j (k + 1) (by omega) _ hp)
  refine ⟨st, h1, key.1, key.2.1, ?_, key.2.2⟩
  rw [← key.2.2 n le_rfl]
  have := key.2.1
  omega

/-- **C56** the factor: lower triangular with positive diagonal, `L Lᵀ = A`. -/
theorem c56_factor (h : LapackOK lp) (hA : SymPosDef (asM n n (upperSym m))) :
    ∃ st, construct lp n m = some st ∧ (∀ i j : Fin n, i < j → getL st i j = 0) ∧ (∀ i : Fin n, 0 < getL st i i) ∧
      asM n n (getL st) * (asM n n (getL st))ᵀ = asM n n (upperSym m) := by
  obtain ⟨st, h1, ⟨a1, a2, a3, a4, a5⟩ | ⟨k, a1, a2, a3, a4⟩⟩ := construct_cases lp n m h m
  · refine ⟨st, h1, fun i j hij => ?_, fun i => ?_, by rw [a3, a5]⟩
    · have := congrFun (congrFun a3 i) j
      rw [asM_apply, lowerPart, Matrix.of_apply, if_neg (not_le.mpr hij)] at this
      exact this
    · have := congrFun (congrFun a3 i) i
      rw [asM_apply, lowerPart, Matrix.of_apply, if_pos le_rfl] at this
      rw [this]; exact a4 i i.2
  · exact absurd (posdef_leading n (k + 1) (by omega) _ hA) a4

theorem construct_posdef (h : LapackOK lp) (hA : SymPosDef (asM n n (upperSym m))) (chol : Mat ℝ) :
    ∃ st, doCompute lp n (pack n m) chol = some st ∧ asM n n (getL st) = lowerPart n (fview n st.lapack) ∧ (∀ i, i < n → 0 < fview n st.lapack i i) ∧
        lowerPart n (fview n st.lapack) * (lowerPart n (fview n st.lapack)).transpose = asM n n (upperSym m) := by
  obtain ⟨st, h1, ⟨a1, a2, a3, a4, a5⟩ | ⟨k, a1, a2, a3, a4⟩⟩ := construct_cases lp n m h chol
  · exact ⟨st, h1, a3, a4, a5⟩
  · exact absurd (posdef_leading n (k + 1) (by omega) _ hA) a4

/-- **C56** `backsub(v)` solves `A x = v`, and `mahalanobis(v) = vᵀ A⁻¹ v`. -/
theorem c56_backsub (h : LapackOK lp) (hA : SymPosDef (asM n n (upperSym m))) (v : Vec ℝ) :
    ∃ st x, construct lp n m = some st ∧ backsubV lp n st v = some x ∧ (asM n n (upperSym m)).mulVec (asV n x) = asV n v ∧
      mahalanobis lp n st v = some (asV n v ⬝ᵥ ((asM n n (upperSym m))⁻¹).mulVec (asV n v)) := by
  obtain ⟨st, h1, _, h3, h4⟩ := construct_posdef lp n m h hA m
  obtain ⟨p1, p2⟩ := h.potrs n 1 st.lapack v (fun i hi => (h3 i hi).ne')
  have hx : backsubV lp n st v = some (lp.potrs n 1 st.lapack n v n).1 := by rw [backsubV]; simp only [p1, if_true]
  have hs : (asM n n (upperSym m)).mulVec (asV n (lp.potrs n 1 st.lapack n v n).1) = asV n v := by
    rw [h4] at p2
    funext i
    have := congrFun (congrFun p2 i) 0
    rw [Matrix.mul_apply] at this
    rw [Matrix.mulVec, dotProduct]
    have e : ∀ (b : Buf ℝ) (k : Fin n), asM n 1 (fview n b) k 0 = b k := by
      intro b k; show b (0 * n + k) = b k; rw [Nat.zero_mul, Nat.zero_add]
    rw [e] at this
    simp only [e] at this
    exact this
  refine ⟨st, _, h1, hx, hs, ?_⟩
  rw [mahalanobis, hx, Option.map_some, Ops.c09_dot]
  congr 2
  have hd : IsUnit (asM n n (upperSym m)).det := by
    rw [← h4, det_mul, det_transpose, lowerPart_det]
    exact (mul_self_ne_zero.mpr (Finset.prod_ne_zero_iff.mpr (fun (i : Fin n) _ => (h3 i i.2).ne'))).isUnit
  rw [← hs, Matrix.mulVec_mulVec, Matrix.nonsing_inv_mul _ hd, Matrix.one_mulVec]

theorem fview_packCol (n c : Nat) (B : Mat ℝ) : asM n c (fview n (packCol n B)) = asM n c B := by
  ext i j
  show B ((j * n + i) % n) ((j * n + i) / n) = B i j
  have hn : 0 < n := by have := i.2; omega
  rw [Nat.mul_comm, Nat.mul_add_mod, Nat.mod_eq_of_lt i.2, Nat.mul_add_div hn, Nat.div_eq_of_lt i.2, Nat.add_zero]

/-- **C56** `backsub(B)` solves `A X = B`, for any number of columns, static or dynamic. -/
theorem c56_backsub_matrix (h : LapackOK lp) (hA : SymPosDef (asM n n (upperSym m))) (c : Nat) (B : Mat ℝ) :
    ∃ st X, construct lp n m = some st ∧ backsubM lp n c st B = some X ∧ asM n n (upperSym m) * asM n c X = asM n c B := by
  obtain ⟨st, h1, _, h3, h4⟩ := construct_posdef lp n m h hA m
  obtain ⟨p1, p2⟩ := h.potrs n c st.lapack (packCol n B) (fun i hi => (h3 i hi).ne')
  refine ⟨st, fview n (lp.potrs n c st.lapack n (packCol n B) n).1, h1, by rw [backsubM]; simp only [p1, if_true], ?_⟩
  rw [h4] at p2
  rw [p2, fview_packCol]

theorem mirror_apply (n : Nat) (X : Mat ℝ) (i j : Nat) (hi : i < n) (hj : j < n) :
    forRange 1 n (fun i M => forN i (fun j M => Mat.set M i j (M j i)) M) X i j = if j < i then X j i else X i j := by
  have key := forRange_inv (fun k (Y : Mat ℝ) => ∀ a c, Y a c = if a < k ∧ c < a then X c a else X a c) 1 n (by omega)
    (fun i M => forN i (fun j M => Mat.set M i j (M j i)) M) X (fun a c => by rw [if_neg (by omega)]) ?_
  · rw [key]; by_cases hc : j < i
    · rw [if_pos ⟨hi, hc⟩, if_pos hc]
    · rw [if_neg (fun hh => hc hh.2), if_neg hc]
  intro k Y hk hk' hY
  have h1 := forN_inv (fun q (Z : Mat ℝ) => ∀ a c, Z a c = if a = k ∧ c < q then X c k else Y a c) k
    (fun j M => Mat.set M k j (M j k)) Y (fun a c => by rw [if_neg (by omega)]) (by
      intro q Z hq hZ a c
      by_cases e : a = k ∧ c = q
      · obtain ⟨rfl, rfl⟩ := e
        rw [Mat.set_self, hZ, if_neg (by omega), hY, if_neg (by omega), if_pos ⟨rfl, by omega⟩]
      · rw [Mat.set_ne _ _ _ _ _ _ e, hZ]
        by_cases e2 : a = k ∧ c < q
        · rw [if_pos e2, if_pos ⟨e2.1, by omega⟩]
        · rw [if_neg e2, if_neg (by omega)])
  intro a c
  rw [h1, hY]
  by_cases e : a = k ∧ c < k
  · rw [if_pos e, if_pos ⟨by omega, by omega⟩, e.1]
  · rw [if_neg e]
    by_cases e2 : a < k ∧ c < a
    · rw [if_pos e2, if_pos ⟨by omega, e2.2⟩]
    · rw [if_neg e2, if_neg (by omega)]

/-- **C56** `get_inverse()` is the (full, symmetric) inverse. -/
theorem c56_inverse (h : LapackOK lp) (hA : SymPosDef (asM n n (upperSym m))) :
    ∃ st X, construct lp n m = some st ∧ getInverse lp n st = some X ∧ asM n n (upperSym m) * asM n n X = 1 ∧
      asM n n X * asM n n (upperSym m) = 1 ∧ (asM n n X)ᵀ = asM n n X := by
  obtain ⟨st, h1, _, h3, h4⟩ := construct_posdef lp n m h hA m
  obtain ⟨p1, p2⟩ := h.potri n st.lapack (fun i hi => (h3 i hi).ne')
  have hX : asM n n (forRange 1 n (fun i M => forN i (fun j M => Mat.set M i j (M j i)) M) (cview n (lp.potri n st.lapack n).1)) =
      asM n n (lowerSym (fview n (lp.potri n st.lapack n).1)) := by
    ext i j
    rw [asM_apply, asM_apply, mirror_apply n _ i j i.2 j.2]
    simp only [lowerSym, fview, cview]
    by_cases hc : (j : Nat) < i
    · rw [if_pos hc, if_pos hc.le]
    · by_cases he : (i : Nat) = j
      · rw [if_neg hc, if_pos (by omega), he]
      · rw [if_neg hc, if_neg (by omega)]
  refine ⟨st, forRange 1 n (fun i M => forN i (fun j M => Mat.set M i j (M j i)) M) (cview n (lp.potri n st.lapack n).1), h1, by rw [getInverse]; simp only [p1, if_true], ?_, ?_, ?_⟩
  · rw [hX, ← h4]; exact p2
  · rw [hX, ← h4]; exact mul_eq_one_comm.mp p2
  · rw [hX]
    ext i j
    simp only [Matrix.transpose_apply, asM_apply, lowerSym]
    by_cases hc : (j : Nat) < i
    · rw [if_neg (by omega), if_pos hc.le]
    · by_cases he : (i : Nat) = j
      · rw [he]
      · rw [if_pos (by omega), if_neg (by omega)]

theorem determinant_eq (hn : 0 < n) (st : St) : determinant n st = (∏ i : Fin n, getL st i i) * (∏ i : Fin n, getL st i i) := by
  have : forRange 1 n (fun i det => det * st.chol i i) (st.chol 0 0) = ∏ i ∈ range n, st.chol i i := by
    refine forRange_inv (fun k (d : ℝ) => d = ∏ i ∈ range k, st.chol i i) 1 n hn _ _ (by simp) ?_
    intro k d _ _ hd
    rw [hd, Finset.prod_range_succ]
  rw [determinant, this, ← Fin.prod_univ_eq_prod_range (fun i => st.chol i i)]
  rfl

/-- **C56** `determinant()` is the determinant of positive definite matrices. -/
theorem c56_determinant (h : LapackOK lp) (hn : 0 < n) (hA : SymPosDef (asM n n (upperSym m))) :
    ∃ st, construct lp n m = some st ∧ determinant n st = (asM n n (upperSym m)).det := by
  obtain ⟨st, h1, h2, h3, h4⟩ := construct_posdef lp n m h hA m
  refine ⟨st, h1, ?_⟩
  rw [determinant_eq n hn, ← h4, det_mul, det_transpose, lowerPart_det]
  have : ∀ i : Fin n, getL st i i = fview n st.lapack i i := by
    intro i
    have := congrFun (congrFun h2 i) i
    rwa [asM_apply, lowerPart, Matrix.of_apply, if_pos le_rfl] at this
  simp only [this]

/-- **C56** `compute(m)` on a used object gives the same results as a new object. -/
theorem c56_compute_reuse (old : St) : ∃ r r' : Option St, construct lp n m = r ∧ compute lp n old m = r' ∧
    (r = none ↔ r' = none) ∧ ∀ s s', r = some s → r' = some s' →
      s.rank = s'.rank ∧ s.lapack = s'.lapack ∧ asM n n (getL s) = asM n n (getL s') := by
  refine ⟨_, _, rfl, rfl, ?_, ?_⟩
  · simp only [construct, compute, doCompute]
    split_ifs <;> simp
  · intro s s' e e'
    simp only [construct, compute, doCompute] at e e'
    by_cases hc : (lp.potrf n (pack n m) n).2 ≥ 0
    · rw [if_pos hc] at e e'
      obtain rfl := Option.some.inj e
      obtain rfl := Option.some.inj e'
      exact ⟨rfl, rfl, by rw [getL, getL]; simp only; rw [asM_copyL, asM_copyL]⟩
    · rw [if_neg hc] at e
      exact absurd e (by simp)

/-- **C56** `determinant()` is a square: it is wrong whenever the determinant is negative, whatever LAPACK returns. -/
theorem c56_determinant_negative_wrong (hn : 0 < n) (hneg : (asM n n (upperSym m)).det < 0) (st : St) :
    determinant n st ≠ (asM n n (upperSym m)).det := by
  rw [determinant_eq n hn]
  intro he
  have := mul_self_nonneg (∏ i : Fin n, getL st i i)
  rw [he] at this
  exact absurd this (not_le.mpr hneg)
end

/-- the documentation says that only the lower half is considered; it is the upper half: `[[1,2],[0,1]]` has the identity as its lower
half, but its `rank()` is not 2. -/
theorem c56_lower_half_doc_wrong (lp : Lapack) (h : LapackOK lp) : ∃ m : Mat ℝ, SymPosDef (asM 2 2 (lowerSym m)) ∧
    ∃ st, construct lp 2 m = some st ∧ st.rank ≠ 2 := by
  refine ⟨fun r c => if r = c then 1 else if r < c then 2 else 0, ?_, ?_⟩
  · constructor
    · ext i j; fin_cases i <;> fin_cases j <;> simp [lowerSym]
    · intro x hx
      have e : dotProduct x ((asM 2 2 (lowerSym (fun r c => if r = c then 1 else if r < c then 2 else 0))).mulVec x) = x 0 ^ 2 + x 1 ^ 2 := by
        simp [dotProduct, Matrix.mulVec, Fin.sum_univ_two, lowerSym]; ring
      rw [e]
      by_contra hle
      exact hx (by
        funext i
        have h0 : x 0 = 0 := by nlinarith [sq_nonneg (x 0), sq_nonneg (x 1)]
        have h1 : x 1 = 0 := by nlinarith [sq_nonneg (x 0), sq_nonneg (x 1)]
        fin_cases i <;> simp [h0, h1])
  · obtain ⟨st, h1, _, _, h4, _⟩ := c56_rank lp 2 (fun r c => if r = c then 1 else if r < c then 2 else 0) h
    refine ⟨st, h1, fun hr => ?_⟩
    have hp := h4.mp (by exact_mod_cast hr)
    have := hp.2 (fun i => if i = 0 then 1 else -1) (fun hx => by have := congrFun hx 0; simp at this)
    norm_num [dotProduct, Matrix.mulVec, Fin.sum_univ_two, upperSym] at this

/-- `rank()` is not the rank of a semidefinite matrix: 0 for `diag(0, 1)`. -/
theorem c56_rank_is_not_matrix_rank (lp : Lapack) (h : LapackOK lp) :
    ∃ st, construct lp 2 (fun r c => if r = 1 ∧ c = 1 then 1 else 0) = some st ∧ st.rank = 0 := by
  obtain ⟨st, h1, h2, h3, _, h5⟩ := c56_rank lp 2 (fun r c => if r = 1 ∧ c = 1 then 1 else 0) h
  refine ⟨st, h1, ?_⟩
  by_contra hne
  have hp := (h5 1 (by norm_num)).mp (by push_cast; omega)
  have := hp.2 (fun _ => 1) (fun hx => by have := congrFun hx 0; simp at this)
  simp [dotProduct, Matrix.mulVec, upperSym] at this

open scoped Classical in
/-- **C56** the contract can be met. -/
theorem c56_contract_satisfiable : ∃ lp : Lapack, LapackOK lp := by
  have hsolve : ∀ n nrhs (A B : Buf ℝ), ∃ X : Buf ℝ, (∀ i, i < n → fview n A i i ≠ 0) →
      lowerPart n (fview n A) * (lowerPart n (fview n A)).transpose * asM n nrhs (fview n X) = asM n nrhs (fview n B) := by
    intro n nrhs A B
    refine ⟨packCol n (fun r c => if hh : r < n ∧ c < nrhs then ((lowerPart n (fview n A) * (lowerPart n (fview n A)).transpose)⁻¹ * asM n nrhs (fview n B)) ⟨r, hh.1⟩ ⟨c, hh.2⟩ else 0), fun hd => ?_⟩
    rw [fview_packCol]
    have e : asM n nrhs (fun r c => if hh : r < n ∧ c < nrhs then ((lowerPart n (fview n A) * (lowerPart n (fview n A)).transpose)⁻¹ * asM n nrhs (fview n B)) ⟨r, hh.1⟩ ⟨c, hh.2⟩ else 0) =
        (lowerPart n (fview n A) * (lowerPart n (fview n A)).transpose)⁻¹ * asM n nrhs (fview n B) := by
      ext i j
      rw [asM_apply, dif_pos ⟨i.2, j.2⟩]
    rw [e, ← Matrix.mul_assoc, Matrix.mul_nonsing_inv, Matrix.one_mul]
    rw [det_mul, det_transpose, lowerPart_det]
    exact (mul_self_ne_zero.mpr (Finset.prod_ne_zero_iff.mpr (fun (i : Fin n) _ => hd i i.2))).isUnit
  have hinv : ∀ n (A : Buf ℝ), ∃ X : Buf ℝ, (∀ i, i < n → fview n A i i ≠ 0) →
      lowerPart n (fview n A) * (lowerPart n (fview n A)).transpose * asM n n (lowerSym (fview n X)) = 1 := by
    intro n A
    set S := lowerPart n (fview n A) * (lowerPart n (fview n A)).transpose with hS
    refine ⟨packCol n (fun r c => if hh : r < n ∧ c < n then S⁻¹ ⟨r, hh.1⟩ ⟨c, hh.2⟩ else 0), fun hd => ?_⟩
    have hsym : (S⁻¹)ᵀ = S⁻¹ := by
      rw [Matrix.transpose_nonsing_inv, hS, transpose_mul, transpose_transpose]
    have e : asM n n (lowerSym (fview n (packCol n (fun r c => if hh : r < n ∧ c < n then S⁻¹ ⟨r, hh.1⟩ ⟨c, hh.2⟩ else 0)))) = S⁻¹ := by
      have e0 := fview_packCol n n (fun r c => if hh : r < n ∧ c < n then S⁻¹ ⟨r, hh.1⟩ ⟨c, hh.2⟩ else 0)
      rw [asM_eq_iff] at e0
      ext i j
      rw [asM_apply]
      simp only [lowerSym]
      by_cases hc : (j : Nat) ≤ i
      · rw [if_pos hc, e0 i j i.2 j.2, dif_pos ⟨i.2, j.2⟩]
      · rw [if_neg hc, e0 j i j.2 i.2, dif_pos ⟨j.2, i.2⟩]
        exact congrFun (congrFun hsym i) j
    rw [e, Matrix.mul_nonsing_inv]
    rw [hS, det_mul, det_transpose, lowerPart_det]
    exact (mul_self_ne_zero.mpr (Finset.prod_ne_zero_iff.mpr (fun (i : Fin n) _ => hd i i.2))).isUnit
  have hfac : ∀ n (A : Buf ℝ), ∃ r : Buf ℝ × Int,
      (r.2 = 0 ∧ (∀ i, i < n → 0 < fview n r.1 i i) ∧
        lowerPart n (fview n r.1) * (lowerPart n (fview n r.1)).transpose = asM n n (lowerSym (fview n A))) ∨
      (∃ i : Nat, 1 ≤ i ∧ i ≤ n ∧ r.2 = i ∧ SymPosDef (asM (i - 1) (i - 1) (lowerSym (fview n A))) ∧
        ¬ SymPosDef (asM i i (lowerSym (fview n A)))) := by
    intro n A
    by_cases hp : SymPosDef (asM n n (lowerSym (fview n A)))
    · obtain ⟨l1, l2, l3⟩ := Chol.c21_get_L n (lowerSym (fview n A)) (fun _ _ => 0) hp
      set L := Chol.getL Real.sqrt n (Chol.compute n (lowerSym (fview n A))).1 (fun _ _ => 0)
      have e0 := fview_packCol n n L
      have e1 : lowerPart n (fview n (packCol n L)) = asM n n L := by
        rw [asM_eq_iff] at e0
        ext i j
        rw [lowerPart, Matrix.of_apply]
        by_cases hc : j ≤ i
        · rw [if_pos hc, e0 i j i.2 j.2]; rfl
        · rw [if_neg hc]; exact (l1 i j (not_le.mp hc)).symm
      refine ⟨(packCol n L, 0), Or.inl ⟨rfl, fun i hi => ?_, by rw [e1]; exact l3⟩⟩
      rw [(asM_eq_iff _ _ _ _).mp e0 i i hi hi]
      exact l2 ⟨i, hi⟩
    · have hex : ∃ i, ¬ SymPosDef (asM i i (lowerSym (fview n A))) := ⟨n, hp⟩
      have h0 : SymPosDef (asM 0 0 (lowerSym (fview n A))) := ⟨by ext i; exact i.elim0, fun x hx => absurd (funext fun i => i.elim0) hx⟩
      have hpos : 1 ≤ Nat.find hex := by
        rcases Nat.eq_zero_or_pos (Nat.find hex) with h | h
        · exact absurd h0 (h ▸ Nat.find_spec hex)
        · exact h
      exact ⟨(A, Nat.find hex), Or.inr ⟨Nat.find hex, hpos, Nat.find_min' hex hp, rfl,
        not_not.mp (Nat.find_min hex (by omega)), Nat.find_spec hex⟩⟩
  choose f hf using hfac
  choose g hg using hsolve
  choose k hk using hinv
  exact ⟨{ potrf := fun n A _ => f n A, potrs := fun n nrhs A _ B _ => (g n nrhs A B, 0), potri := fun n A _ => (k n A, 0) },
    ⟨fun n A => hf n A, fun n nrhs A B hd => ⟨rfl, hg n nrhs A B hd⟩, fun n A hd => ⟨rfl, hk n A hd⟩⟩⟩

/-- a positive definite example: `[[4,2],[777,3]]` (the lower half is not used) -/
example : SymPosDef (asM 2 2 (upperSym (fun r c => if r = 0 then (if c = 0 then 4 else 2) else if c = 0 then 777 else 3))) := by
  constructor
  · ext i j; fin_cases i <;> fin_cases j <;> simp [upperSym]
  · intro x hx
    have e : dotProduct x ((asM 2 2 (upperSym (fun r c => if r = 0 then (if c = 0 then 4 else 2) else if c = 0 then 777 else 3))).mulVec x) = (2 * x 0 + x 1)^2 + 2 * x 1 ^ 2 := by
      simp [dotProduct, Matrix.mulVec, Fin.sum_univ_two, upperSym]; ring
    rw [e]
    by_contra hle
    have h1 : x 1 = 0 := by nlinarith [sq_nonneg (2 * x 0 + x 1), sq_nonneg (x 1)]
    have h0 : x 0 = 0 := by rw [h1] at hle; nlinarith [sq_nonneg (x 0)]
    exact hx (by funext i; fin_cases i <;> simp [h0, h1])

end
end TooN.LapackChol
