import Verif.Proof.SVD
import Mathlib.Algebra.Order.Ring.Abs
import Mathlib.LinearAlgebra.Matrix.Determinant.Basic
import Mathlib.Tactic.FinCases
import Mathlib.Tactic.NormNum
import Mathlib.Tactic.IntervalCases
/-!
# C28: SVD

For every `gesvd` meeting LAPACK's contract (`GesvdOK`; `Props/SVDExists.lean` shows that it can be met), every shape
and every matrix.
-/
set_option linter.unusedSectionVars false
namespace TooN.SVD
open Finset Matrix TooN.LU TooN.Ops
variable {K : Type _} [Field K] [LinearOrder K] [IsStrictOrderedRing K]

/-- **C28** `get_U()`, `get_diagonal()`, `get_VT()` are a singular value decomposition of the input, for tall, square and
wide matrices alike: `A = U D VT`, orthonormal, nonnegative, descending. -/
theorem c28_decomposition (g : Gesvd K) (hg : GesvdOK g) (rows cols : Nat) (A : Mat K) :
    let s := compute g rows cols A
    IsSVD (asM rows cols A) (asM rows (min rows cols) (getU s)) (asV (min rows cols) (getDiagonal s))
      (asM (min rows cols) cols (getVT s)) :=
  compute_isSVD g hg rows cols A

/-- the singular values that the threshold keeps are exactly the nonzero ones -/
def KeepsNonzero (s : St K) (condition : K) : Prop :=
  ∀ i, i < s.minDim → s.diag i ≠ 0 → s.diag 0 < s.diag i * condition

theorem nonneg_of_compute (g : Gesvd K) (hg : GesvdOK g) (rows cols : Nat) (A : Mat K) :
    ∀ i, i < (compute g rows cols A).minDim → 0 ≤ (compute g rows cols A).diag i :=
  fun i hi => (compute_isSVD g hg rows cols A).nonneg ⟨i, hi⟩

/-- **C28** no division by zero happens, whatever the matrix and the condition number. -/
theorem c28_no_division_by_zero (g : Gesvd K) (hg : GesvdOK g) (rows cols : Nat) (A : Mat K) (condition : K)
    (u : Vec K) : ∃ inv, getInvDiag (compute g rows cols A) condition u = some inv := by
  obtain ⟨inv, h, _⟩ := getInvDiag_eq _ (nonneg_of_compute g hg rows cols A) condition u
  exact ⟨inv, h⟩

/-- **C28** `get_inv_diag()` returns `0` for the small singular values and the reciprocal of the others. -/
theorem c28_inv_diag (g : Gesvd K) (hg : GesvdOK g) (rows cols : Nat) (A : Mat K) (condition : K) (u : Vec K) :
    ∃ inv, getInvDiag (compute g rows cols A) condition u = some inv ∧ ∀ i, i < min rows cols →
      inv i = if getDiagonal (compute g rows cols A) i * condition ≤ getDiagonal (compute g rows cols A) 0 then 0
        else 1 / getDiagonal (compute g rows cols A) i := by
  obtain ⟨inv, h, h2⟩ := getInvDiag_eq _ (nonneg_of_compute g hg rows cols A) condition u
  refine ⟨inv, h, fun i hi => ?_⟩
  rw [h2 i hi, one_div]; rfl

/-- **C28** `get_pinv()` is the Moore-Penrose pseudo-inverse when the threshold keeps exactly the nonzero singular
values. -/
theorem c28_pinv_moore_penrose (g : Gesvd K) (hg : GesvdOK g) (rows cols : Nat) (A : Mat K) (condition : K)
    (hk : KeepsNonzero (compute g rows cols A) condition) (j : Junk K) :
    ∃ P, getPinv (compute g rows cols A) condition j = some P ∧
      MoorePenrose (asM rows cols A) (asM cols rows P) := by
  obtain ⟨P, h1, h2⟩ := getPinv_eq _ (nonneg_of_compute g hg rows cols A) condition j
  refine ⟨P, h1, ?_⟩
  have hs := compute_isSVD g hg rows cols A
  have h2' : asM cols rows P = _ := h2
  rw [h2', ← hs.prod]
  have hd : ∀ i : Fin (min rows cols), invS (compute g rows cols A) condition i =
      ((compute g rows cols A).diag i)⁻¹ := by
    intro i
    unfold invS
    by_cases hz : (compute g rows cols A).diag i = 0
    · rw [hz, _root_.inv_zero, ite_self]
    · rw [if_neg (not_le.2 (hk i i.2 hz))]
  refine moorePenrose_of_svd hs.orthU hs.orthV (asV (min rows cols) (getDiagonal (compute g rows cols A)))
    (invS (compute g rows cols A) condition) ?_ ?_
  · intro i
    rw [hd i]
    show _ * _ * (compute g rows cols A).diag i = (compute g rows cols A).diag i
    exact mul_inv_mul_cancel _
  · intro i
    rw [hd i]
    show _ * (compute g rows cols A).diag i * _ = _
    by_cases hz : (compute g rows cols A).diag i = 0
    · rw [hz]; simp
    · rw [inv_mul_cancel₀ hz, one_mul]

/-- **C28** for every condition number `get_pinv()` is the pseudo-inverse of the matrix whose small singular values have been
set to zero. -/
theorem c28_pinv_truncated (g : Gesvd K) (hg : GesvdOK g) (rows cols : Nat) (A : Mat K) (condition : K) (j : Junk K) :
    let s := compute g rows cols A
    ∃ P, getPinv s condition j = some P ∧ MoorePenrose
      (asM rows (min rows cols) (getU s) *
        diagonal (fun i : Fin (min rows cols) => if s.diag i * condition ≤ s.diag 0 then 0 else s.diag i) *
        asM (min rows cols) cols (getVT s)) (asM cols rows P) := by
  intro s
  obtain ⟨P, h1, h2⟩ := getPinv_eq s (nonneg_of_compute g hg rows cols A) condition j
  refine ⟨P, h1, ?_⟩
  have hs := compute_isSVD g hg rows cols A
  have h2' : asM cols rows P = _ := h2
  rw [h2']
  have hz : ∀ i : Fin (min rows cols), ¬ s.diag i * condition ≤ s.diag 0 → s.diag i ≠ 0 := by
    intro i h hz
    apply h
    rw [hz, zero_mul]
    exact nonneg_of_compute g hg rows cols A 0 (by have := i.2; show 0 < min rows cols; omega)
  refine moorePenrose_of_svd hs.orthU hs.orthV _ (invS s condition) ?_ ?_
  · intro i
    show (if s.diag i * condition ≤ s.diag 0 then 0 else s.diag i) *
      (if s.diag i * condition ≤ s.diag 0 then 0 else (s.diag i)⁻¹) * (if s.diag i * condition ≤ s.diag 0 then 0 else s.diag i)
      = _
    by_cases h : s.diag i * condition ≤ s.diag 0
    · simp only [if_pos h, mul_zero]
    · simp only [if_neg h]; exact mul_inv_mul_cancel _
  · intro i
    show (if s.diag i * condition ≤ s.diag 0 then 0 else (s.diag i)⁻¹) *
      (if s.diag i * condition ≤ s.diag 0 then 0 else s.diag i) * (if s.diag i * condition ≤ s.diag 0 then 0 else (s.diag i)⁻¹)
      = (if s.diag i * condition ≤ s.diag 0 then 0 else (s.diag i)⁻¹)
    by_cases h : s.diag i * condition ≤ s.diag 0
    · simp only [if_pos h, mul_zero]
    · simp only [if_neg h]; rw [inv_mul_cancel₀ (hz i h), one_mul]

/-- **C28** `backsub(rhs)` is `get_pinv() * rhs`, for matrices and vectors and every condition number. -/
theorem c28_backsub_eq_pinv (g : Gesvd K) (hg : GesvdOK g) (rows cols : Nat) (A : Mat K) (condition : K)
    (c2 : Nat) (B : Mat K) (b : Vec K) (j j' j'' : Junk K) :
    let s := compute g rows cols A
    ∃ P X x, getPinv s condition j = some P ∧ backsubM s condition c2 B j' = some X ∧
      backsubV s condition b j'' = some x ∧
      asM cols c2 X = asM cols rows P * asM rows c2 B ∧
      asV cols x = (asM cols rows P).mulVec (asV rows b) := by
  intro s
  have h0 := nonneg_of_compute g hg rows cols A
  obtain ⟨P, h1, h2⟩ := getPinv_eq s h0 condition j
  obtain ⟨X, h3, h4⟩ := backsubM_eq s h0 condition c2 B j'
  obtain ⟨x, h5, h6⟩ := backsubV_eq s h0 condition b j''
  refine ⟨P, X, x, h1, h3, h5, ?_, ?_⟩
  · exact h4.trans (congrArg (fun M : Matrix (Fin cols) (Fin rows) K => M * asM rows c2 B) h2.symm)
  · exact h6.trans (congrArg (fun M : Matrix (Fin cols) (Fin rows) K => Matrix.mulVec M (asV rows b)) h2.symm)

/-- **C28** `backsub(b)` is the least squares solution of `A x = b`, and of all of these the shortest. -/
theorem c28_backsub_least_squares (g : Gesvd K) (hg : GesvdOK g) (rows cols : Nat) (A : Mat K) (condition : K)
    (hk : KeepsNonzero (compute g rows cols A) condition) (b : Vec K) (j : Junk K) :
    ∃ x, backsubV (compute g rows cols A) condition b j = some x ∧
      (∀ y : Fin cols → K,
        ((asM rows cols A).mulVec (asV cols x) - asV rows b) ⬝ᵥ ((asM rows cols A).mulVec (asV cols x) - asV rows b) ≤
        ((asM rows cols A).mulVec y - asV rows b) ⬝ᵥ ((asM rows cols A).mulVec y - asV rows b)) ∧
      (∀ y : Fin cols → K, (asM rows cols A).mulVec y = (asM rows cols A).mulVec (asV cols x) →
        asV cols x ⬝ᵥ asV cols x ≤ y ⬝ᵥ y) := by
  obtain ⟨P, hP, hmp⟩ := c28_pinv_moore_penrose g hg rows cols A condition hk j
  obtain ⟨P', X, x, h1, _, h3, _, h5⟩ := c28_backsub_eq_pinv g hg rows cols A condition 0 (fun _ _ => 0) b j j j
  rw [hP] at h1
  obtain rfl := Option.some.inj h1
  refine ⟨x, h3, ?_, ?_⟩
  · intro y; rw [h5]; exact moorePenrose_lsq hmp _ y
  · intro y hy; rw [h5] at hy ⊢; exact moorePenrose_minnorm hmp _ y hy

/-- **C28** for an invertible matrix `get_pinv()` is the inverse and `backsub` solves the system. -/
theorem c28_invertible (g : Gesvd K) (hg : GesvdOK g) (n : Nat) (A : Mat K) (hA : (asM n n A).det ≠ 0) (condition : K)
    (hk : KeepsNonzero (compute g n n A) condition) (b : Vec K) (j : Junk K) :
    (∃ P, getPinv (compute g n n A) condition j = some P ∧ asM n n P = (asM n n A)⁻¹) ∧
    (∃ x, backsubV (compute g n n A) condition b j = some x ∧ (asM n n A).mulVec (asV n x) = asV n b) := by
  obtain ⟨P, hP, hmp⟩ := c28_pinv_moore_penrose g hg n n A condition hk j
  obtain ⟨P', X, x, h1, _, h3, _, h5⟩ := c28_backsub_eq_pinv g hg n n A condition 0 (fun _ _ => 0) b j j j
  rw [hP] at h1
  obtain rfl := Option.some.inj h1
  have hu : IsUnit (asM n n A).det := isUnit_iff_ne_zero.2 hA
  have hinv : asM n n P = (asM n n A)⁻¹ := by
    have := congrArg (fun M => (asM n n A)⁻¹ * M * (asM n n A)⁻¹) hmp.axa
    rw [← Matrix.mul_assoc, ← Matrix.mul_assoc, Matrix.nonsing_inv_mul _ hu, Matrix.one_mul, Matrix.one_mul,
      Matrix.mul_assoc, Matrix.mul_nonsing_inv _ hu, Matrix.mul_one] at this
    exact this
  refine ⟨⟨P, hP, hinv⟩, x, h3, ?_⟩
  rw [h5, hinv, Matrix.mulVec_mulVec, Matrix.mul_nonsing_inv _ hu, Matrix.one_mulVec]

theorem determinant_prod (s : St K) (h : 1 ≤ s.minDim) : determinant s = ∏ i : Fin s.minDim, s.diag i := by
  rw [Fin.prod_univ_eq_prod_range (fun i => s.diag i) s.minDim]
  unfold determinant
  refine forRange_inv (fun k x => x = ∏ i ∈ range k, s.diag i) 1 s.minDim h _ _ (by simp) ?_
  intro i t _ _ ht
  rw [prod_range_succ, ht]

theorem abs_det_orth {n : Nat} {U : Matrix (Fin n) (Fin n) K} (h : Uᵀ * U = 1) : |U.det| = 1 := by
  have := congrArg Matrix.det h
  rw [det_mul, det_transpose, det_one] at this
  have h2 : |U.det| * |U.det| = 1 := by rw [← abs_mul, this, abs_one]
  rcases mul_self_eq_one_iff.1 h2 with h3 | h3
  · exact h3
  · have := abs_nonneg U.det; rw [h3] at this; linarith

/-- **C28** `determinant()` is the absolute value of the determinant. -/
theorem c28_determinant_partial (g : Gesvd K) (hg : GesvdOK g) (n : Nat) (hn : 1 ≤ n) (A : Mat K) :
    determinant (compute g n n A) = |(asM n n A).det| := by
  have hm : (compute g n n A).minDim = n := Nat.min_self n
  rw [determinant_prod _ (by rw [hm]; exact hn)]
  have hs := IsSVD.castDim (Nat.min_self n) (compute_isSVD g hg n n A)
  rw [← hs.prod, det_mul, det_mul, abs_mul, abs_mul, abs_det_orth hs.orthU, one_mul, det_diagonal]
  have hV : |(asM n n (getVT (compute g n n A))).det| = 1 := by
    rw [← det_transpose]
    exact abs_det_orth (by rw [transpose_transpose]; exact hs.orthV)
  rw [hV, mul_one, abs_of_nonneg (Finset.prod_nonneg (fun i _ => hs.nonneg i))]
  rw [Fin.prod_univ_eq_prod_range (fun i => (compute g n n A).diag i), hm,
    ← Fin.prod_univ_eq_prod_range (fun i => (compute g n n A).diag i)]
  rfl

/-- **C28** the documentation ("for square matrices this is the determinant") is wrong: `[[0,1],[1,0]]` has determinant
`-1`, every SVD of it yields `1`. -/
theorem c28_determinant_wrong (g : Gesvd K) (hg : GesvdOK g) :
    let A : Mat K := fun r c => if r = c then 0 else 1
    determinant (compute g 2 2 A) = 1 ∧ (asM 2 2 A).det = -1 := by
  have hd : (asM 2 2 (fun r c => if r = c then (0:K) else 1)).det = -1 := by
    rw [det_fin_two]; simp
  refine ⟨?_, hd⟩
  rw [c28_determinant_partial g hg 2 (by omega), hd, abs_neg, abs_one]

/-- the rank of a matrix is the number of its nonzero singular values -/
theorem rank_of_svd {r c k : Nat} {A : Matrix (Fin r) (Fin c) K} {U : Matrix (Fin r) (Fin k) K} {s : Fin k → K}
    {VT : Matrix (Fin k) (Fin c) K} (h : IsSVD A U s VT) : A.rank = (univ.filter (fun i => s i ≠ 0)).card := by
  have h1 : A.rank ≤ (diagonal s).rank := by
    rw [← h.prod]
    exact (rank_mul_le_left _ _).trans (rank_mul_le_right _ _)
  have h2 : (diagonal s).rank ≤ A.rank := by
    have : diagonal s = Uᵀ * A * VTᵀ := by
      rw [← h.prod]
      calc diagonal s = 1 * diagonal s * 1 := by simp
        _ = Uᵀ * U * diagonal s * (VT * VTᵀ) := by rw [h.orthU, h.orthV]
        _ = _ := by simp only [Matrix.mul_assoc]
    rw [this]
    exact (rank_mul_le_left _ _).trans (rank_mul_le_right _ _)
  rw [le_antisymm h1 h2, rank_diagonal, Fintype.card_subtype]

/-- **C28** what `rank()` really returns: one plus the number of singular values that are *dropped* by the threshold
(`0` when the largest one vanishes). -/
theorem c28_rank_returns (s : St K) (condition : K) :
    rank s condition = if s.diag 0 = 0 then 0 else
      1 + ((Finset.range s.minDim).filter (fun i => s.diag i * condition ≤ s.diag 0)).card := by
  unfold rank
  split
  · rfl
  · refine forN_inv (fun k x => x = 1 + ((Finset.range k).filter (fun i => s.diag i * condition ≤ s.diag 0)).card)
      s.minDim _ 1 (by simp) ?_
    intro i t _ ht
    rw [Finset.range_add_one, Finset.filter_insert]
    by_cases h : s.diag i * condition ≤ s.diag 0
    · rw [if_pos h, if_pos h, Finset.card_insert_of_notMem (by simp), ht]; omega
    · rw [if_neg h, if_neg h, ht]

/-- **C28** with a threshold separating zero and nonzero singular values, `rank()` of a nonzero `A` is
`1 + min(rows,cols) - rank(A)`: the comparison in the loop is inverted.  It is right exactly when
`2 rank(A) = min(rows,cols) + 1`. -/
theorem c28_rank_partial (g : Gesvd K) (hg : GesvdOK g) (rows cols : Nat) (A : Mat K) (condition : K)
    (hk : KeepsNonzero (compute g rows cols A) condition) (hne : asM rows cols A ≠ 0) :
    rank (compute g rows cols A) condition + (asM rows cols A).rank = 1 + min rows cols := by
  have hs := compute_isSVD g hg rows cols A
  set s := compute g rows cols A with hsd
  have hm : s.minDim = min rows cols := rfl
  have hpos : 0 < min rows cols := by
    by_contra h
    have h0 : min rows cols = 0 := by omega
    apply hne
    rw [← hs.prod]
    ext i j
    have : IsEmpty (Fin (min rows cols)) := by rw [h0]; exact Fin.isEmpty
    simp [Matrix.mul_apply]
  have h0 : s.diag 0 ≠ 0 := by
    intro h0
    apply hne
    rw [← hs.prod]
    have : asV (min rows cols) (getDiagonal s) = 0 := by
      funext i
      have h1 := hs.desc ⟨0, hpos⟩ i (Nat.zero_le _)
      have h2 := hs.nonneg i
      have h3 : asV (min rows cols) (getDiagonal s) ⟨0, hpos⟩ = 0 := h0
      rw [h3] at h1
      exact le_antisymm h1 h2
    rw [this, show diagonal (0 : Fin (min rows cols) → K) = 0 from diagonal_zero, Matrix.mul_zero, Matrix.zero_mul]
  rw [c28_rank_returns, if_neg h0, rank_of_svd hs]
  have hz : ∀ i, i < min rows cols → (s.diag i * condition ≤ s.diag 0 ↔ ¬ (s.diag i ≠ 0)) := by
    intro i hi
    constructor
    · intro h hz; exact absurd h (not_le.2 (hk i hi hz))
    · intro h
      rw [not_not.1 h, zero_mul]
      exact nonneg_of_compute g hg rows cols A 0 hpos
  have e : (univ.filter (fun i : Fin (min rows cols) => asV (min rows cols) (getDiagonal s) i ≠ 0)).card =
      ((Finset.range (min rows cols)).filter (fun i => s.diag i ≠ 0)).card := by
    rw [Finset.card_filter, Finset.card_filter,
      ← Fin.sum_univ_eq_sum_range (fun i => if s.diag i ≠ 0 then 1 else 0)]
    rfl
  have e2 : ((Finset.range s.minDim).filter (fun i => s.diag i * condition ≤ s.diag 0)) =
      ((Finset.range (min rows cols)).filter (fun i => ¬ (s.diag i ≠ 0))) := by
    rw [hm]
    exact Finset.filter_congr (fun i hi => hz i (Finset.mem_range.1 hi))
  rw [e, e2, Nat.add_assoc, Nat.add_comm (Finset.card _) (Finset.card _),
    Finset.card_filter_add_card_filter_not, Finset.card_range]

/-- all singular values of the identity are `1` -/
theorem svd_one {n : Nat} {U : Matrix (Fin n) (Fin n) K} {D : Fin n → K} {VT : Matrix (Fin n) (Fin n) K}
    (hs : IsSVD 1 U D VT) (i : Fin n) : D i = 1 := by
  have h1 : diagonal D * diagonal D = 1 := by
    have e1 : (U * diagonal D * VT)ᵀ * (U * diagonal D * VT) = 1 := by rw [hs.prod]; simp
    rw [transpose_mul, transpose_mul, diagonal_transpose] at e1
    calc diagonal D * diagonal D = (VT * VTᵀ) * (diagonal D * (Uᵀ * U) * diagonal D) * (VT * VTᵀ) := by
          rw [hs.orthU, hs.orthV]; simp
      _ = VT * (VTᵀ * (diagonal D * Uᵀ) * (U * diagonal D * VT)) * VTᵀ := by simp only [Matrix.mul_assoc]
      _ = VT * 1 * VTᵀ := by rw [e1]
      _ = 1 := by rw [Matrix.mul_one, hs.orthV]
  have h2 := congrFun (congrFun h1 i) i
  rw [diagonal_mul_diagonal, diagonal_apply_eq, one_apply_eq] at h2
  rcases mul_self_eq_one_iff.1 h2 with h3 | h3
  · exact h3
  · have := hs.nonneg i; rw [h3] at this; linarith

/-- **C28** so every well conditioned invertible matrix is reported to have rank 1; e.g. the 2×2 identity, with the default
condition number, for every valid `gesvd`. -/
theorem c28_rank_wrong (g : Gesvd K) (hg : GesvdOK g) :
    let A : Mat K := fun r c => if r = c then 1 else 0
    rank (compute g 2 2 A) conditionNo = 1 ∧ (asM 2 2 A).rank = 2 := by
  intro A
  have hA : asM 2 2 A = 1 := by
    ext i j
    rw [asM_apply, Matrix.one_apply]
    by_cases e : i = j
    · rw [if_pos e]; exact if_pos (congrArg _ e)
    · rw [if_neg e]; exact if_neg (fun h => e (Fin.ext h))
  have hr : (asM 2 2 A).rank = 2 := by rw [hA, rank_one]; simp
  refine ⟨?_, hr⟩
  have hs := compute_isSVD g hg 2 2 A
  have hd : ∀ i : Fin (min 2 2), asV (min 2 2) (getDiagonal (compute g 2 2 A)) i = 1 := by
    intro i
    have hs' := hs
    rw [hA] at hs'
    exact svd_one (IsSVD.castDim (Nat.min_self 2) hs') (Fin.cast (Nat.min_self 2) i)
  have hk : KeepsNonzero (compute g 2 2 A) conditionNo := by
    intro i hi _
    have a : (compute g 2 2 A).diag i = 1 := hd ⟨i, hi⟩
    have b : (compute g 2 2 A).diag 0 = 1 := hd ⟨0, by decide⟩
    rw [a, b, conditionNo]; norm_num
  have := c28_rank_partial g hg 2 2 A conditionNo hk (by rw [hA]; exact one_ne_zero)
  rw [hr] at this
  have h2 : min 2 2 = 2 := rfl
  omega

end TooN.SVD
