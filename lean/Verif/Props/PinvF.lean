import Verif.Proof.PinvF
import Verif.Proof.SVD
import Verif.Model.GRSVD
import Verif.Model.SymEigen
/-!
# C85: solving with singular values and eigenvalues in floating point

`SVD`, `GR_SVD` and `SymEigen` hold a decomposition (orthogonal factors and a diagonal) whose entries are floating-point numbers;
`backsub` and `get_pinv` multiply the factors by the truncated reciprocals of the diagonal.  The theorems are about any contents of
the members: no claim about the decomposition routine is used.  The element type is `Fl ρ` (`Spec/Float.lean`), every operation
rounds once.
-/
set_option linter.unusedSectionVars false
namespace TooN.PinvF
open Finset TooN.Ops
open scoped Classical
variable {ρ : Rounding}

/-- the reciprocal of `v`, or zero if the *computed* product of its magnitude and the condition number does not exceed the
threshold -/
noncomputable def trunc (ρ : Rounding) (thr mag v condition : ℝ) : ℝ :=
  if ρ.rnd (mag * condition) ≤ thr then 0 else 1 / v

/-- **C85** the rounded truncation test: what the exact test would drop is dropped, and what exceeds the threshold by more than one
rounding error is kept -/
theorem c85_truncation (thr : Fl ρ) (mag v condition : ℝ) (h : 0 ≤ mag * condition) :
    (mag * condition ≤ thr.val → trunc ρ thr.val mag v condition = 0) ∧
    (thr.val < mag * condition * (1 - ρ.u) → trunc ρ thr.val mag v condition = 1 / v) := by
  constructor
  · intro hle
    exact if_pos (by rw [← thr.repr]; exact ρ.mono _ _ hle)
  · intro hlt
    refine if_neg (not_le.2 (lt_of_lt_of_le hlt ?_))
    have := abs_le.1 (ρ.err (mag * condition))
    rw [abs_of_nonneg h] at this
    linarith [this.1]

/-! ## SVD.h -/

theorem svd_inv (s : SVD.St (Fl ρ)) (h0 : 0 ≤ (s.diag 0).val) (condition : Fl ρ) (u : Vec (Fl ρ)) :
    ∃ inv, SVD.getInvDiag s condition u = some inv ∧ ∀ l, l < s.minDim → ∃ g, Fac ρ.u 1 g ∧
      (inv l).val = trunc ρ (s.diag 0).val (s.diag l).val (s.diag l).val condition.val * g := by
  obtain ⟨inv, h1, h2⟩ := loop_diag s.minDim (fun i inv =>
      if s.diag i * condition ≤ s.diag 0 then some (Vec.set inv i 0)
      else if s.diag i = 0 then none else some (Vec.set inv i (1 / s.diag i)))
    (fun i => if s.diag i * condition ≤ s.diag 0 then 0 else 1 / s.diag i) (by
      intro i _ t
      by_cases hc : s.diag i * condition ≤ s.diag 0
      · rw [if_pos hc, if_pos hc]
      · have hz : s.diag i ≠ 0 := by
          intro hz; apply hc
          rw [Fl.le_def, Fl.val_mul, hz, Fl.val_zero, zero_mul, Fl.rnd_zero]; exact h0
        rw [if_neg hc, if_neg hc, if_neg hz]) u
  refine ⟨inv, h1, fun l hl => ?_⟩
  rw [h2 l hl]
  by_cases hc : s.diag l * condition ≤ s.diag 0
  · rw [if_pos hc, trunc, if_pos (show ρ.rnd _ ≤ _ from hc)]
    exact ⟨1, Fac.one ρ.u_nonneg ρ.u_lt_one 1, by simp⟩
  · rw [if_neg hc, trunc, if_neg (show ¬ ρ.rnd _ ≤ _ from hc)]
    exact inv_fac _

/-- **C85** `SVD::backsub(Vector)`: never divides by zero, and every element of the result is
`Σ_l V_il s⁺_l Σ_j U_jl b_j` up to `γ` times the same sum of absolute values; `s⁺` is the truncated reciprocal -/
theorem c85_svd_backsub (s : SVD.St (Fl ρ)) (h0 : 0 ≤ (s.diag 0).val)
    (hu : ((s.minDim + s.rows + 2 : ℕ) : ℝ) * ρ.u < 1) (condition : Fl ρ) (b : Vec (Fl ρ)) (j : SVD.Junk (Fl ρ)) :
    ∃ x, SVD.backsubV s condition b j = some x ∧ ∀ i, i < s.cols →
      |(x i).val - ∑ l ∈ range s.minDim, (SVD.getVT s l i).val *
          trunc ρ (s.diag 0).val (s.diag l).val (s.diag l).val condition.val *
          ∑ k ∈ range s.rows, (SVD.getU s k l).val * (b k).val| ≤
        gam ρ.u (s.minDim + s.rows + 2) * ∑ l ∈ range s.minDim, |(SVD.getVT s l i).val| *
          |trunc ρ (s.diag 0).val (s.diag l).val (s.diag l).val condition.val| *
          ∑ k ∈ range s.rows, |(SVD.getU s k l).val| * |(b k).val| := by
  obtain ⟨inv, h1, h2⟩ := svd_inv s h0 condition j.v1
  unfold SVD.backsubV
  rw [h1]
  refine ⟨_, rfl, fun i hi => ?_⟩
  beta_reduce
  rw [mulMV_val _ _ _ _ _ _ hi]
  exact core_back s.minDim s.rows hu (Mat.T (SVD.getVT s) i) inv _ (Mat.T (SVD.getU s)) b _ h2 (fun l hl => by
    rw [diagmultVV_val _ _ _ _ _ hl, mulMV_val _ _ _ _ _ _ hl])

/-- **C85** `SVD::backsub(Matrix)`: the same for every column -/
theorem c85_svd_backsub_matrix (s : SVD.St (Fl ρ)) (h0 : 0 ≤ (s.diag 0).val)
    (hu : ((s.minDim + s.rows + 2 : ℕ) : ℝ) * ρ.u < 1) (condition : Fl ρ) (c2 : ℕ) (B : Mat (Fl ρ)) (j : SVD.Junk (Fl ρ)) :
    ∃ X, SVD.backsubM s condition c2 B j = some X ∧ ∀ i c, i < s.cols → c < c2 →
      |(X i c).val - ∑ l ∈ range s.minDim, (SVD.getVT s l i).val *
          trunc ρ (s.diag 0).val (s.diag l).val (s.diag l).val condition.val *
          ∑ k ∈ range s.rows, (SVD.getU s k l).val * (B k c).val| ≤
        gam ρ.u (s.minDim + s.rows + 2) * ∑ l ∈ range s.minDim, |(SVD.getVT s l i).val| *
          |trunc ρ (s.diag 0).val (s.diag l).val (s.diag l).val condition.val| *
          ∑ k ∈ range s.rows, |(SVD.getU s k l).val| * |(B k c).val| := by
  obtain ⟨inv, h1, h2⟩ := svd_inv s h0 condition j.v1
  unfold SVD.backsubM
  rw [h1]
  refine ⟨_, rfl, fun i c hi hc => ?_⟩
  beta_reduce
  rw [mulMM_val _ _ _ _ _ _ _ _ hi hc]
  exact core_back s.minDim s.rows hu (Mat.T (SVD.getVT s) i) inv _ (Mat.T (SVD.getU s)) (Mat.T B c) _ h2 (fun l hl => by
    rw [Mat.T, diagmultVM_val _ _ _ _ _ _ _ hl hc, mulMM_val _ _ _ _ _ _ _ _ hl hc])

/-- **C85** `SVD::get_pinv` -/
theorem c85_svd_pinv (s : SVD.St (Fl ρ)) (h0 : 0 ≤ (s.diag 0).val)
    (hu : ((s.minDim + 2 : ℕ) : ℝ) * ρ.u < 1) (condition : Fl ρ) (j : SVD.Junk (Fl ρ)) :
    ∃ P, SVD.getPinv s condition j = some P ∧ ∀ i k, i < s.cols → k < s.rows →
      |(P i k).val - ∑ l ∈ range s.minDim, (SVD.getVT s l i).val *
          trunc ρ (s.diag 0).val (s.diag l).val (s.diag l).val condition.val * (SVD.getU s k l).val| ≤
        gam ρ.u (s.minDim + 2) * ∑ l ∈ range s.minDim, |(SVD.getVT s l i).val *
          trunc ρ (s.diag 0).val (s.diag l).val (s.diag l).val condition.val * (SVD.getU s k l).val| := by
  obtain ⟨inv, h1, h2⟩ := svd_inv s h0 condition j.v1
  unfold SVD.getPinv
  rw [h1]
  refine ⟨_, rfl, fun i k hi hk => ?_⟩
  beta_reduce
  rw [mulMM_val _ _ _ _ _ _ _ _ hi hk]
  refine core_pinv s.minDim hu _ _ _ (fun l hl => ?_)
  obtain ⟨g, hg, eg⟩ := h2 l hl
  obtain ⟨f, hf, ef⟩ := Fl.mul_fac (Mat.T (SVD.getVT s) i l) (inv l)
  refine ⟨g * f, hg.mul ρ.u_nonneg ρ.u_lt_one hf, ?_⟩
  rw [diagmultMV_val _ _ _ _ _ _ _ hi hl, ef, eg]
  simp only [Mat.T]; ring

/-- **C85** `SVD::determinant`: the product of the diagonal with a small relative error; it vanishes exactly if an element of the
diagonal does, and otherwise has the sign of the exact product -/
theorem c85_svd_determinant (s : SVD.St (Fl ρ)) (hs : 1 ≤ s.minDim) (hu : ((s.minDim - 1 : ℕ) : ℝ) * ρ.u < 1) :
    |(SVD.determinant s).val - ∏ i ∈ range s.minDim, (s.diag i).val| ≤
      gam ρ.u (s.minDim - 1) * |∏ i ∈ range s.minDim, (s.diag i).val| ∧
    (0 < (SVD.determinant s).val ↔ 0 < ∏ i ∈ range s.minDim, (s.diag i).val) ∧
    ((SVD.determinant s).val = 0 ↔ ∃ i, i < s.minDim ∧ (s.diag i).val = 0) := by
  obtain ⟨n, hn⟩ : ∃ n, s.minDim = n + 1 := ⟨s.minDim - 1, by omega⟩
  obtain ⟨f, hf, e⟩ := prod_fac (s.minDim - 1) (fun i => s.diag (1 + i)) (s.diag 0)
  have e2 : (SVD.determinant s).val = (∏ i ∈ range s.minDim, (s.diag i).val) * f := by
    show (forN (s.minDim - 1) (fun k => (fun i result => result * s.diag i) (1 + k)) (s.diag 0)).val = _
    rw [e]
    congr 1
    rw [hn, prod_range_succ', mul_comm, Nat.add_sub_cancel]
    congr 1
    exact prod_congr rfl fun i _ => by rw [add_comm 1 i]
  have fp := hf.pos ρ.u_nonneg ρ.u_lt_one
  rw [e2]
  refine ⟨?_, mul_pos_iff_of_pos_right fp, ?_⟩
  · rw [show ∀ p : ℝ, p * f - p = (f - 1) * p from fun p => by ring, abs_mul]
    exact mul_le_mul_of_nonneg_right (hf.gam ρ.u_nonneg ρ.u_lt_one hu) (abs_nonneg _)
  · rw [mul_eq_zero, or_iff_left fp.ne', prod_eq_zero_iff]
    simp only [mem_range]

/-! ## GR_SVD.h -/

/-- **C85** `get_largest_singular_value()` is exact: it returns the largest element of the diagonal -/
theorem c85_gr_largest (N : ℕ) (hN : 1 ≤ N) (d : Vec (Fl ρ)) :
    (∃ i, i < N ∧ grLargest N d = d i) ∧ ∀ i, i < N → (d i).val ≤ (grLargest N d).val := by
  have := forRange_inv (fun k m => (∃ i, i < k ∧ m = d i) ∧ ∀ i, i < k → (d i).val ≤ m.val) 1 N hN
    (fun i m => if m < d i then d i else m) (d 0)
    ⟨⟨0, by omega, rfl⟩, fun i hi => by rw [show i = 0 by omega]⟩ (by
      rintro i m _ _ ⟨⟨k, hk, e⟩, h⟩
      by_cases hm : m < d i
      · rw [if_pos hm]
        refine ⟨⟨i, by omega, rfl⟩, fun l hl => ?_⟩
        rcases Nat.lt_succ_iff_lt_or_eq.1 hl with h' | rfl
        · exact (h l h').trans (le_of_lt hm)
        · exact le_refl _
      · rw [if_neg hm]
        refine ⟨⟨k, by omega, e⟩, fun l hl => ?_⟩
        rcases Nat.lt_succ_iff_lt_or_eq.1 hl with h' | rfl
        · exact h l h'
        · exact not_lt.1 hm)
  exact this

theorem gr_inv (N : ℕ) (d : Vec (Fl ρ)) (condition : Fl ρ) (u : Vec (Fl ρ)) :
    ∃ inv, grInvDiag N d condition u = some inv ∧ ∀ l, l < N → ∃ g, Fac ρ.u 1 g ∧
      (inv l).val = trunc ρ (grLargest N d).val (d l).val (d l).val condition.val * g := by
  obtain ⟨inv, h1, h2⟩ := loop_diag N (fun i inv =>
      if grLargest N d < d i * condition then (if d i = 0 then none else some (Vec.set inv i (1 / d i)))
      else some (Vec.set inv i 0))
    (fun i => if grLargest N d < d i * condition then 1 / d i else 0) (by
      intro i hi t
      by_cases hc : grLargest N d < d i * condition
      · have hz : d i ≠ 0 := by
          intro hz
          have h2 := (c85_gr_largest N (by omega) d).2 i hi
          rw [Fl.lt_def, Fl.val_mul, hz, Fl.val_zero, zero_mul, Fl.rnd_zero] at hc
          rw [hz, Fl.val_zero] at h2
          linarith
        rw [if_pos hc, if_pos hc, if_neg hz]
      · rw [if_neg hc, if_neg hc]) u
  refine ⟨inv, h1, fun l hl => ?_⟩
  rw [h2 l hl]
  by_cases hc : grLargest N d < d l * condition
  · rw [if_pos hc, trunc, if_neg (not_le.2 (show _ < ρ.rnd _ from hc))]
    exact inv_fac _
  · rw [if_neg hc, trunc, if_pos (not_lt.1 (show ¬ _ < ρ.rnd _ from hc))]
    exact ⟨1, Fac.one ρ.u_nonneg ρ.u_lt_one 1, by simp⟩

/-- **C85** `GR_SVD::backsub(Vector)`, without any assumption on the contents of the members -/
theorem c85_gr_backsub (M N : ℕ) (hu : ((N + M + 2 : ℕ) : ℝ) * ρ.u < 1) (U V : Mat (Fl ρ)) (d : Vec (Fl ρ)) (condition : Fl ρ)
    (b j1 j2 j3 j4 : Vec (Fl ρ)) :
    ∃ x, grBacksubV M N U V d condition b j1 j2 j3 j4 = some x ∧ ∀ i, i < N →
      |(x i).val - ∑ l ∈ range N, (V i l).val * trunc ρ (grLargest N d).val (d l).val (d l).val condition.val *
          ∑ k ∈ range M, (U k l).val * (b k).val| ≤
        gam ρ.u (N + M + 2) * ∑ l ∈ range N, |(V i l).val| *
          |trunc ρ (grLargest N d).val (d l).val (d l).val condition.val| *
          ∑ k ∈ range M, |(U k l).val| * |(b k).val| := by
  obtain ⟨inv, h1, h2⟩ := gr_inv N d condition j1
  unfold grBacksubV
  rw [h1]
  refine ⟨_, rfl, fun i hi => ?_⟩
  beta_reduce
  rw [mulMV_val _ _ _ _ _ _ hi]
  exact core_back N M hu (V i) inv _ (Mat.T U) b _ h2 (fun l hl => by
    rw [diagmultVV_val _ _ _ _ _ hl, mulMV_val _ _ _ _ _ _ hl])

/-- **C85** `GR_SVD::backsub(Matrix)` -/
theorem c85_gr_backsub_matrix (M N : ℕ) (hu : ((N + M + 2 : ℕ) : ℝ) * ρ.u < 1) (U V : Mat (Fl ρ)) (d : Vec (Fl ρ))
    (condition : Fl ρ) (c2 : ℕ) (B : Mat (Fl ρ)) (j1 : Vec (Fl ρ)) (j2 j3 j4 : Mat (Fl ρ)) :
    ∃ X, grBacksubM M N U V d condition c2 B j1 j2 j3 j4 = some X ∧ ∀ i c, i < N → c < c2 →
      |(X i c).val - ∑ l ∈ range N, (V i l).val * trunc ρ (grLargest N d).val (d l).val (d l).val condition.val *
          ∑ k ∈ range M, (U k l).val * (B k c).val| ≤
        gam ρ.u (N + M + 2) * ∑ l ∈ range N, |(V i l).val| *
          |trunc ρ (grLargest N d).val (d l).val (d l).val condition.val| *
          ∑ k ∈ range M, |(U k l).val| * |(B k c).val| := by
  obtain ⟨inv, h1, h2⟩ := gr_inv N d condition j1
  unfold grBacksubM
  rw [h1]
  refine ⟨_, rfl, fun i c hi hc => ?_⟩
  beta_reduce
  rw [mulMM_val _ _ _ _ _ _ _ _ hi hc]
  exact core_back N M hu (V i) inv _ (Mat.T U) (Mat.T B c) _ h2 (fun l hl => by
    rw [Mat.T, diagmultVM_val _ _ _ _ _ _ _ hl hc, mulMM_val _ _ _ _ _ _ _ _ hl hc])

/-- **C85** `GR_SVD::get_pinv` -/
theorem c85_gr_pinv (M N : ℕ) (hu : ((N + 2 : ℕ) : ℝ) * ρ.u < 1) (U V : Mat (Fl ρ)) (d : Vec (Fl ρ)) (condition : Fl ρ)
    (j1 : Vec (Fl ρ)) (j2 j3 : Mat (Fl ρ)) :
    ∃ P, grPinv M N U V d condition j1 j2 j3 = some P ∧ ∀ i k, i < N → k < M →
      |(P i k).val - ∑ l ∈ range N, (V i l).val *
          trunc ρ (grLargest N d).val (d l).val (d l).val condition.val * (U k l).val| ≤
        gam ρ.u (N + 2) * ∑ l ∈ range N, |(V i l).val *
          trunc ρ (grLargest N d).val (d l).val (d l).val condition.val * (U k l).val| := by
  obtain ⟨inv, h1, h2⟩ := gr_inv N d condition j1
  unfold grPinv
  rw [h1]
  refine ⟨_, rfl, fun i k hi hk => ?_⟩
  beta_reduce
  rw [mulMM_val _ _ _ _ _ _ _ _ hi hk]
  refine core_pinv N hu _ _ _ (fun l hl => ?_)
  obtain ⟨g, hg, eg⟩ := h2 l hl
  obtain ⟨f, hf, ef⟩ := Fl.mul_fac (V i l) (inv l)
  refine ⟨g * f, hg.mul ρ.u_nonneg ρ.u_lt_one hf, ?_⟩
  rw [diagmultMV_val _ _ _ _ _ _ _ hi hl, ef, eg]
  simp only [Mat.T]; ring

/-! ## SymEigen.h -/

/-- the threshold of `SymEigen`: the larger of minus the first and the last eigenvalue (they are in ascending order) -/
noncomputable def symThr (n : ℕ) (ev : Vec (Fl ρ)) : ℝ := max (-(ev 0).val) (ev (n - 1)).val

theorem symThr_eq (n : ℕ) (ev : Vec (Fl ρ)) :
    (if ev (n - 1) < -(ev 0) then -(ev 0) else ev (n - 1)).val = symThr n ev := by
  unfold symThr
  by_cases h : ev (n - 1) < -(ev 0)
  · rw [if_pos h, Fl.val_neg, max_eq_left]; exact le_of_lt h
  · rw [if_neg h, max_eq_right]; exact not_lt.1 h

theorem sym_inv (n : ℕ) (ev : Vec (Fl ρ)) (h0 : (ev 0).val ≤ (ev (n-1)).val) (condition : Fl ρ) (u : Vec (Fl ρ)) :
    ∃ inv, symInvDiag Fl.abs n ev condition u = some inv ∧ ∀ l, l < n → ∃ g, Fac ρ.u 1 g ∧
      (inv l).val = trunc ρ (symThr n ev) |(ev l).val| (ev l).val condition.val * g := by
  have hpos : 0 ≤ symThr n ev := by
    unfold symThr
    rcases le_total 0 (ev (n-1)).val with h | h
    · exact h.trans (le_max_right _ _)
    · exact (neg_nonneg.2 (h0.trans h)).trans (le_max_left _ _)
  obtain ⟨inv, h1, h2⟩ := loop_diag n (fun i inv =>
      if (if ev (n - 1) < -(ev 0) then -(ev 0) else ev (n - 1)) < (ev i).abs * condition then
        (if ev i = 0 then none else some (Vec.set inv i (1 / ev i)))
      else some (Vec.set inv i 0))
    (fun i => if symThr n ev < ((ev i).abs * condition).val then 1 / ev i else 0) (by
      intro i hi t
      have hiff : (if ev (n - 1) < -(ev 0) then -(ev 0) else ev (n - 1)) < (ev i).abs * condition ↔
          symThr n ev < ((ev i).abs * condition).val := by rw [Fl.lt_def, symThr_eq]
      by_cases hc : symThr n ev < ((ev i).abs * condition).val
      · have hz : ev i ≠ 0 := by
          intro hz
          rw [Fl.val_mul, hz, Fl.val_abs, Fl.val_zero, abs_zero, zero_mul, Fl.rnd_zero] at hc
          linarith
        rw [if_pos (hiff.2 hc), if_pos hc, if_neg hz]
      · rw [if_neg (mt hiff.1 hc), if_neg hc]) u
  refine ⟨inv, h1, fun l hl => ?_⟩
  rw [h2 l hl]
  by_cases hc : symThr n ev < ((ev l).abs * condition).val
  · rw [if_pos hc, trunc, if_neg (not_le.2 (show symThr n ev < ρ.rnd (|(ev l).val| * condition.val) from hc))]
    exact inv_fac _
  · rw [if_neg hc, trunc, if_pos (not_lt.1 (show ¬ symThr n ev < ρ.rnd (|(ev l).val| * condition.val) from hc))]
    exact ⟨1, Fac.one ρ.u_nonneg ρ.u_lt_one 1, by simp⟩

/-- **C85** `SymEigen::backsub(Vector)` -/
theorem c85_sym_backsub (n : ℕ) (hu : ((n + n + 2 : ℕ) : ℝ) * ρ.u < 1) (Q : Mat (Fl ρ)) (ev : Vec (Fl ρ))
    (h0 : (ev 0).val ≤ (ev (n-1)).val) (condition : Fl ρ) (b j1 j2 j3 j4 : Vec (Fl ρ)) :
    ∃ x, symBacksubV Fl.abs n Q ev condition b j1 j2 j3 j4 = some x ∧ ∀ i, i < n →
      |(x i).val - ∑ l ∈ range n, (Q l i).val * trunc ρ (symThr n ev) |(ev l).val| (ev l).val condition.val *
          ∑ k ∈ range n, (Q l k).val * (b k).val| ≤
        gam ρ.u (n + n + 2) * ∑ l ∈ range n, |(Q l i).val| *
          |trunc ρ (symThr n ev) |(ev l).val| (ev l).val condition.val| *
          ∑ k ∈ range n, |(Q l k).val| * |(b k).val| := by
  obtain ⟨inv, h1, h2⟩ := sym_inv n ev h0 condition j1
  unfold symBacksubV
  rw [h1]
  refine ⟨_, rfl, fun i hi => ?_⟩
  beta_reduce
  rw [mulMV_val _ _ _ _ _ _ hi]
  exact core_back n n hu (Mat.T Q i) inv _ Q b _ h2 (fun l hl => by
    rw [diagmultVV_val _ _ _ _ _ hl, mulMV_val _ _ _ _ _ _ hl])

/-- **C85** `SymEigen::backsub(Matrix)` -/
theorem c85_sym_backsub_matrix (n : ℕ) (hu : ((n + n + 2 : ℕ) : ℝ) * ρ.u < 1) (Q : Mat (Fl ρ)) (ev : Vec (Fl ρ))
    (h0 : (ev 0).val ≤ (ev (n-1)).val) (condition : Fl ρ) (c2 : ℕ) (B : Mat (Fl ρ)) (j1 : Vec (Fl ρ)) (j2 j3 j4 : Mat (Fl ρ)) :
    ∃ X, symBacksubM Fl.abs n Q ev condition c2 B j1 j2 j3 j4 = some X ∧ ∀ i c, i < n → c < c2 →
      |(X i c).val - ∑ l ∈ range n, (Q l i).val * trunc ρ (symThr n ev) |(ev l).val| (ev l).val condition.val *
          ∑ k ∈ range n, (Q l k).val * (B k c).val| ≤
        gam ρ.u (n + n + 2) * ∑ l ∈ range n, |(Q l i).val| *
          |trunc ρ (symThr n ev) |(ev l).val| (ev l).val condition.val| *
          ∑ k ∈ range n, |(Q l k).val| * |(B k c).val| := by
  obtain ⟨inv, h1, h2⟩ := sym_inv n ev h0 condition j1
  unfold symBacksubM
  rw [h1]
  refine ⟨_, rfl, fun i c hi hc => ?_⟩
  beta_reduce
  rw [mulMM_val _ _ _ _ _ _ _ _ hi hc]
  exact core_back n n hu (Mat.T Q i) inv _ Q (Mat.T B c) _ h2 (fun l hl => by
    rw [Mat.T, diagmultVM_val _ _ _ _ _ _ _ hl hc, mulMM_val _ _ _ _ _ _ _ _ hl hc])

/-- **C85** `SymEigen::get_pinv` -/
theorem c85_sym_pinv (n : ℕ) (hu : ((n + 2 : ℕ) : ℝ) * ρ.u < 1) (Q : Mat (Fl ρ)) (ev : Vec (Fl ρ))
    (h0 : (ev 0).val ≤ (ev (n-1)).val) (condition : Fl ρ) (j1 : Vec (Fl ρ)) (j2 j3 : Mat (Fl ρ)) :
    ∃ P, symPinv Fl.abs n Q ev condition j1 j2 j3 = some P ∧ ∀ i k, i < n → k < n →
      |(P i k).val - ∑ l ∈ range n, (Q l i).val *
          trunc ρ (symThr n ev) |(ev l).val| (ev l).val condition.val * (Q l k).val| ≤
        gam ρ.u (n + 2) * ∑ l ∈ range n, |(Q l i).val *
          trunc ρ (symThr n ev) |(ev l).val| (ev l).val condition.val * (Q l k).val| := by
  obtain ⟨inv, h1, h2⟩ := sym_inv n ev h0 condition j1
  unfold symPinv
  rw [h1]
  refine ⟨_, rfl, fun i k hi hk => ?_⟩
  beta_reduce
  rw [mulMM_val _ _ _ _ _ _ _ _ hi hk]
  refine core_pinv n hu _ _ _ (fun l hl => ?_)
  obtain ⟨g, hg, eg⟩ := h2 l hl
  obtain ⟨f, hf, ef⟩ := Fl.mul_fac (inv l) (Q l k)
  refine ⟨g * f, hg.mul ρ.u_nonneg ρ.u_lt_one hf, ?_⟩
  simp only [Mat.T]
  rw [diagmultVM_val _ _ _ _ _ _ _ hl hk, ef, eg]
  ring

/-- **C85** `SymEigen::get_sqrtm`, when no eigenvalue is negative -/
theorem c85_sym_sqrtm (n : ℕ) (hu : ((n + 2 : ℕ) : ℝ) * ρ.u < 1) (Q : Mat (Fl ρ)) (ev : Vec (Fl ρ))
    (h0 : ∀ i, i < n → 0 ≤ (ev i).val) (j1 : Vec (Fl ρ)) (j2 j3 : Mat (Fl ρ)) :
    ∃ P, symSqrtm Fl.sqrt n Q ev j1 j2 j3 = some P ∧ ∀ i k, i < n → k < n →
      |(P i k).val - ∑ l ∈ range n, (Q l i).val * Real.sqrt (ev l).val * (Q l k).val| ≤
        gam ρ.u (n + 2) * ∑ l ∈ range n, |(Q l i).val * Real.sqrt (ev l).val * (Q l k).val| := by
  obtain ⟨d, h1, h2⟩ := loop_diag n (fun i d => if ev i < 0 then none else some (Vec.set d i (Fl.sqrt (ev i))))
    (fun i => Fl.sqrt (ev i)) (fun i hi t => if_neg (not_lt.2 (h0 i hi))) j1
  unfold symSqrtm
  rw [h1]
  refine ⟨_, rfl, fun i k hi hk => ?_⟩
  beta_reduce
  rw [mulMM_val _ _ _ _ _ _ _ _ hi hk]
  refine core_pinv n hu _ _ _ (fun l hl => ?_)
  obtain ⟨g, hg, eg⟩ := rnd_fac ρ (Real.sqrt (ev l).val)
  obtain ⟨f, hf, ef⟩ := Fl.mul_fac (d l) (Q l k)
  refine ⟨g * f, hg.mul ρ.u_nonneg ρ.u_lt_one hf, ?_⟩
  simp only [Mat.T]
  rw [diagmultVM_val _ _ _ _ _ _ _ hl hk, ef, h2 l hl, Fl.val_sqrt, eg]
  ring

/-- **C85** `SymEigen::get_determinant` -/
theorem c85_sym_determinant (n : ℕ) (hu : (n : ℝ) * ρ.u < 1) (ev : Vec (Fl ρ)) :
    |(symDeterminant n ev).val - ∏ i ∈ range n, (ev i).val| ≤ gam ρ.u n * |∏ i ∈ range n, (ev i).val| ∧
    (0 < (symDeterminant n ev).val ↔ 0 < ∏ i ∈ range n, (ev i).val) ∧
    ((symDeterminant n ev).val = 0 ↔ ∃ i, i < n ∧ (ev i).val = 0) := by
  obtain ⟨f, hf, e⟩ := prod_fac n ev 1
  have fp := hf.pos ρ.u_nonneg ρ.u_lt_one
  unfold symDeterminant
  rw [e, Fl.val_one, one_mul]
  refine ⟨?_, mul_pos_iff_of_pos_right fp, ?_⟩
  · rw [show ∀ p : ℝ, p * f - p = (f - 1) * p from fun p => by ring, abs_mul]
    exact mul_le_mul_of_nonneg_right (hf.gam ρ.u_nonneg ρ.u_lt_one hu) (abs_nonneg _)
  · rw [mul_eq_zero, or_iff_left fp.ne', prod_eq_zero_iff]
    simp only [mem_range]

/-! ## The functions are those of the other models -/

/-- **C85** at the real numbers the functions above are the ones of `Model/GRSVD.lean` and `Model/SymEigen.lean` -/
theorem c85_same_code :
    (∀ M N (st : GRSVD.St) (condition : ℝ) (b : Vec ℝ) (j : SVD.Junk ℝ),
      grBacksubV M N st.U st.V st.d condition b j.v1 j.v2 j.v3 j.v3 = GRSVD.backsubV M N st condition b j) ∧
    (∀ M N (st : GRSVD.St) (condition : ℝ) (c2 : ℕ) (B : Mat ℝ) (j : SVD.Junk ℝ),
      grBacksubM M N st.U st.V st.d condition c2 B j.v1 j.m1 j.m2 j.m3 = GRSVD.backsubM M N st condition c2 B j) ∧
    (∀ M N (st : GRSVD.St) (condition : ℝ) (j : SVD.Junk ℝ),
      grPinv M N st.U st.V st.d condition j.v1 j.m1 j.m2 = GRSVD.getPinv M N st condition j) ∧
    (∀ (s : SymEigen.St) (condition : ℝ) (b j1 j2 j3 j4 : Vec ℝ),
      symBacksubV (fun x => |x|) s.n s.evectors s.evalues condition b j1 j2 j3 j4 = SymEigen.backsubV s condition b j1 j2 j3 j4) ∧
    (∀ (s : SymEigen.St) (condition : ℝ) (c : ℕ) (B : Mat ℝ) (j1 : Vec ℝ) (j2 j3 j4 : Mat ℝ),
      symBacksubM (fun x => |x|) s.n s.evectors s.evalues condition c B j1 j2 j3 j4 =
        SymEigen.backsubM s condition c B j1 j2 j3 j4) ∧
    (∀ (s : SymEigen.St) (condition : ℝ) (j1 : Vec ℝ) (j2 j3 : Mat ℝ),
      symPinv (fun x => |x|) s.n s.evectors s.evalues condition j1 j2 j3 = SymEigen.getPinv s condition j1 j2 j3) ∧
    (∀ (s : SymEigen.St) (j1 : Vec ℝ) (j2 j3 : Mat ℝ),
      symSqrtm Real.sqrt s.n s.evectors s.evalues j1 j2 j3 = SymEigen.getSqrtm s j1 j2 j3) ∧
    (∀ (s : SymEigen.St), symDeterminant s.n s.evalues = SymEigen.getDeterminant s) := by
  have e1 : ∀ N (d : Vec ℝ), grLargest N d = GRSVD.largest N d := by
    intro N d
    unfold grLargest GRSVD.largest
    congr 1
    funext i m
    rcases lt_or_ge m (d i) with h | h
    · rw [if_pos h, max_eq_right h.le]
    · rw [if_neg (not_lt.2 h), max_eq_left h]
  have e2 : ∀ N (d : Vec ℝ) c u, grInvDiag N d c u = GRSVD.getInvDiag N d c u := by
    intro N d c u
    unfold grInvDiag GRSVD.getInvDiag
    rw [e1]
  have e3 : ∀ (s : SymEigen.St) c u, symInvDiag (fun x => |x|) s.n s.evalues c u = SymEigen.getInvDiag s c u := by
    intro s c u
    unfold symInvDiag SymEigen.getInvDiag
    congr 1
  refine ⟨?_, ?_, ?_, ?_, ?_, ?_, ?_, ?_⟩
  · intros; unfold grBacksubV GRSVD.backsubV; rw [e2]
  · intros; unfold grBacksubM GRSVD.backsubM; rw [e2]
  · intros; unfold grPinv GRSVD.getPinv; rw [e2]
  · intros; unfold symBacksubV SymEigen.backsubV; rw [e3]
  · intros; unfold symBacksubM SymEigen.backsubM; rw [e3]
  · intros; unfold symPinv SymEigen.getPinv; rw [e3]
  · intro s j1 j2 j3
    unfold symSqrtm SymEigen.getSqrtm
    congr 1
    congr 1
    funext i d
    unfold SymEigen.sqrtC
    by_cases h : s.evalues i < 0
    · rw [if_pos h, if_pos h]; rfl
    · rw [if_neg h, if_neg h]; rfl
  · intros; rfl

/-- the hypotheses are met: a `3 × 2` decomposition of doubles with diagonal `(1, 0)` -/
example : ∃ s : SVD.St (Fl Rounding.double), s.rows = 3 ∧ s.cols = 2 ∧ s.minDim = 2 ∧ 0 ≤ (s.diag 0).val ∧
    (s.diag 0).val ≠ 0 ∧ ((s.minDim + s.rows + 2 : ℕ) : ℝ) * Rounding.double.u < 1 := by
  refine ⟨⟨3, 2, fun _ => 1, fun i => if i = 0 then 1 else 0, fun _ => 1⟩, rfl, rfl, rfl, ?_, ?_, ?_⟩
  · show 0 ≤ (if (0:ℕ) = 0 then (1 : Fl Rounding.double) else 0).val
    rw [if_pos rfl]; simp
  · show (if (0:ℕ) = 0 then (1 : Fl Rounding.double) else 0).val ≠ 0
    rw [if_pos rfl]; simp
  · show ((min 3 2 + 3 + 2 : ℕ) : ℝ) * _ < 1
    rw [Rounding.double_u]; norm_num
/-- both branches of the truncation occur: with condition number `10^9`, the value `1` is kept and `0` is dropped, threshold `1` -/
example : trunc Rounding.exact 1 1 1 1000000000 = 1 ∧ trunc Rounding.exact 1 0 0 1000000000 = 0 := by
  constructor
  · have := (c85_truncation (ρ := Rounding.exact) 1 1 1 1000000000 (by norm_num)).2
    simpa using this (by show (1:ℝ) < 1 * 1000000000 * (1 - 0); norm_num)
  · have := (c85_truncation (ρ := Rounding.exact) 1 0 0 1000000000 (by norm_num)).1
    simpa using this (by show (0:ℝ) * _ ≤ 1; norm_num)

end TooN.PinvF
