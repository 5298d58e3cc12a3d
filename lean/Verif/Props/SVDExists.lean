import Verif.Props.SVD
import Verif.Proof.Spectral
/-!
# C28: the contract of `gesvd` can be met
-/
namespace TooN.SVD
open Matrix TooN.LU

/-- every real matrix has a singular value decomposition with inner dimension `min r c` -/
theorem svd_exists (r c : Nat) (A : Matrix (Fin r) (Fin c) ℝ) :
    ∃ (U : Matrix (Fin r) (Fin (min r c)) ℝ) (s : Fin (min r c) → ℝ) (VT : Matrix (Fin (min r c)) (Fin c) ℝ),
      IsSVD A U s VT := by
  by_cases h : c ≤ r
  · rw [Nat.min_eq_right h]
    obtain ⟨U, s, VT, h1, h2, h3, h4, h5⟩ := Spectral.svd_exists_tall r c h A
    exact ⟨U, s, VT, h1, h2, h3, h4, h5⟩
  · rw [Nat.min_eq_left (by omega)]
    obtain ⟨U, s, VT, h1, h2, h3, h4, h5⟩ := Spectral.svd_exists_tall c r (by omega) Aᵀ
    have : IsSVD Aᵀ U s VT := ⟨h1, h2, h3, h4, h5⟩
    have h := this.transpose
    rw [transpose_transpose] at h
    exact ⟨_, _, _, h⟩

/-- **C28** the contract of `gesvd` can be met: the theorems of `Props/SVD.lean` are not vacuous. -/
theorem c28_contract_satisfiable : ∃ g : Gesvd ℝ, GesvdOK g := by
  classical
  choose U s VT h using svd_exists
  let ofV : {n : Nat} → (Fin n → ℝ) → Vec ℝ := fun {n} v i => if h : i < n then v ⟨i, h⟩ else 0
  have hofV : ∀ (n : Nat) (v : Fin n → ℝ), asV n (ofV v) = v := by intro n v; funext i; simp [ofV]
  refine ⟨fun jobu _ M N A lda ldu ldvt =>
    let X := asM M N (fview lda A)
    if jobu = 'S' then (fpack lda (ofM (VT M N X)), ofV (s M N X), fpack ldu (ofM (U M N X)))
    else (fpack lda (ofM (U M N X)), ofV (s M N X), fpack ldvt (ofM (VT M N X))), ?_, ?_⟩
  · intro M N A lda ldu ldvt h1 h2
    simp only [if_true]
    rw [asM_fpack _ _ _ h2, asM_fpack _ _ _ (le_trans (Nat.min_le_left M N) h1), hofV]
    exact h M N _
  · intro M N A lda ldu ldvt h1 h2
    simp only [if_neg (show ¬ ('O' = 'S') by decide)]
    rw [asM_fpack _ _ _ h1, asM_fpack _ _ _ h2, hofV]
    exact h M N _

/-- a concrete use: for the 2×2 identity the default threshold keeps exactly the nonzero singular values, so the
hypotheses of `c28_pinv_moore_penrose` are met (and the pseudo-inverse is the identity). -/
example : ∃ g : Gesvd ℝ, GesvdOK g ∧
    KeepsNonzero (compute g 2 2 (fun r c => if r = c then 1 else 0)) conditionNo := by
  obtain ⟨g, hg⟩ := c28_contract_satisfiable
  refine ⟨g, hg, ?_⟩
  have hA : asM 2 2 (fun r c => if r = c then (1:ℝ) else 0) = 1 := by
    ext i j
    rw [asM_apply, Matrix.one_apply]
    by_cases e : i = j
    · rw [if_pos e]; exact if_pos (congrArg _ e)
    · rw [if_neg e]; exact if_neg (fun h => e (Fin.ext h))
  have hs := compute_isSVD g hg 2 2 (fun r c => if r = c then 1 else 0)
  rw [hA] at hs
  have hs' := IsSVD.castDim (Nat.min_self 2) hs
  intro i hi _
  have a : (compute g 2 2 (fun r c => if r = c then (1:ℝ) else 0)).diag i = 1 := svd_one hs' ⟨i, hi⟩
  have b : (compute g 2 2 (fun r c => if r = c then (1:ℝ) else 0)).diag 0 = 1 := svd_one hs' ⟨0, by decide⟩
  rw [a, b, conditionNo]; norm_num

/-- a wide rank-deficient case of the Moore-Penrose hypothesis: any `1 × 2` matrix, any condition number above `1` -/
example (g : Gesvd ℝ) (hg : GesvdOK g) (A : Mat ℝ) : KeepsNonzero (compute g 1 2 A) conditionNo := by
  intro i hi h
  have hi0 : i = 0 := by
    have : (compute g 1 2 A).minDim = 1 := rfl
    omega
  subst hi0
  have h0 := (compute_isSVD g hg 1 2 A).nonneg ⟨0, by decide⟩
  have h1 : 0 < (compute g 1 2 A).diag 0 := lt_of_le_of_ne h0 (Ne.symm h)
  unfold conditionNo
  linarith

end TooN.SVD
