import Verif.Props.Helpers
import Mathlib.Analysis.Normed.Lp.PiLp
import Mathlib.Tactic
set_option linter.unusedSectionVars false
/-!
# C42: all the norms of helpers.h are norms
-/
namespace TooN.Helpers
open Finset TooN.Ops

/-- What it means for a function of the elements of a vector of size `n` to be a norm, in terms of `v + w` and `v * c`
(`u` is the uninitialised memory of the result). -/
def NormV (n : Nat) (N : Vec ℝ → ℝ) : Prop := ∀ (v w u : Vec ℝ) (c : ℝ),
  0 ≤ N v ∧ (N v = 0 ↔ ∀ i, i < n → v i = 0) ∧ N (addV n v w u) ≤ N v + N w ∧
  N (applyScalarV (· * ·) n v c u) = |c| * N v

/-- The same for `R × C` matrices. -/
def NormM (R C : Nat) (N : Mat ℝ → ℝ) : Prop := ∀ (v w u : Mat ℝ) (c : ℝ),
  0 ≤ N v ∧ (N v = 0 ↔ ∀ i j, i < R → j < C → v i j = 0) ∧ N (addM R C v w u) ≤ N v + N w ∧
  N (applyScalarM (· * ·) R C v c u) = |c| * N v

theorem addV_get (n : Nat) (v w u : Vec ℝ) (i : Fin n) : addV n v w u i = v i + w i := by
  show pairwiseV _ _ _ _ _ _ = _
  rw [pairwiseV, forN_vecset, if_pos i.2]

theorem scaleV_get (n : Nat) (v u : Vec ℝ) (c : ℝ) (i : Fin n) : applyScalarV (· * ·) n v c u i = v i * c := by
  rw [applyScalarV, forN_vecset, if_pos i.2]

theorem addM_get (R C : Nat) (v w u : Mat ℝ) (i : Fin R) (j : Fin C) : addM R C v w u i j = v i j + w i j := by
  show pairwiseM _ _ _ _ _ _ _ _ = _
  rw [pairwiseM, evalM_apply, if_pos ⟨i.2, j.2⟩]

theorem scaleM_get (R C : Nat) (v u : Mat ℝ) (c : ℝ) (i : Fin R) (j : Fin C) :
    applyScalarM (· * ·) R C v c u i j = v i j * c := by
  rw [applyScalarM, evalM_apply, if_pos ⟨i.2, j.2⟩]

theorem normV_of {E : Type} [NormedAddCommGroup E] [NormedSpace ℝ E] (n : Nat) (N : Vec ℝ → ℝ)
    (φ : (Fin n → ℝ) →ₗ[ℝ] E) (hφ : ∀ x, φ x = 0 → x = 0) (hN : ∀ v, N v = ‖φ (fun i : Fin n => v i)‖) : NormV n N := by
  intro v w u c
  refine ⟨?_, ?_, ?_, ?_⟩
  · rw [hN]; exact norm_nonneg _
  · rw [hN, norm_eq_zero]
    constructor
    · intro h i hi
      exact congrFun (hφ _ h) ⟨i, hi⟩
    · intro h
      rw [show (fun i : Fin n => v i) = 0 from funext fun i => h i i.2, map_zero]
  · rw [hN, hN, hN, show (fun i : Fin n => addV n v w u i) = (fun i : Fin n => v i) + fun i : Fin n => w i from
      funext fun i => addV_get n v w u i, map_add]
    exact norm_add_le _ _
  · rw [hN, hN, show (fun i : Fin n => applyScalarV (· * ·) n v c u i) = c • (fun i : Fin n => v i) from
      funext fun i => by rw [scaleV_get]; simp [mul_comm], map_smul, norm_smul, Real.norm_eq_abs]

theorem normM_of {E : Type} [NormedAddCommGroup E] [NormedSpace ℝ E] (R C : Nat) (N : Mat ℝ → ℝ)
    (φ : (Fin R → Fin C → ℝ) →ₗ[ℝ] E) (hφ : ∀ x, φ x = 0 → x = 0)
    (hN : ∀ v, N v = ‖φ (fun (i : Fin R) (j : Fin C) => v i j)‖) : NormM R C N := by
  intro v w u c
  refine ⟨?_, ?_, ?_, ?_⟩
  · rw [hN]; exact norm_nonneg _
  · rw [hN, norm_eq_zero]
    constructor
    · intro h i j hi hj
      exact congrFun (congrFun (hφ _ h) ⟨i, hi⟩) ⟨j, hj⟩
    · intro h
      rw [show (fun (i : Fin R) (j : Fin C) => v i j) = 0 from funext fun i => funext fun j => h i j i.2 j.2, map_zero]
  · rw [hN, hN, hN, show (fun (i : Fin R) (j : Fin C) => addM R C v w u i j) =
      (fun (i : Fin R) (j : Fin C) => v i j) + fun (i : Fin R) (j : Fin C) => w i j from
      funext fun i => funext fun j => addM_get R C v w u i j, map_add]
    exact norm_add_le _ _
  · rw [hN, hN, show (fun (i : Fin R) (j : Fin C) => applyScalarM (· * ·) R C v c u i j) =
      c • (fun (i : Fin R) (j : Fin C) => v i j) from
      funext fun i => funext fun j => by rw [scaleM_get]; simp [mul_comm], map_smul, norm_smul, Real.norm_eq_abs]

/-- **C42** `norm`, `norm_1` and (of nonempty vectors) `norm_inf` are norms. -/
theorem c42_vector_norms (n : Nat) :
    NormV n (norm n) ∧ NormV n (norm1 n) ∧ (1 ≤ n → NormV n (normInf n)) := by
  refine ⟨?_, ?_, ?_⟩
  · refine normV_of n _ (WithLp.linearEquiv 2 ℝ (Fin n → ℝ)).symm.toLinearMap (fun x h => ?_) (fun v => c42_norm n v)
    exact (LinearEquiv.map_eq_zero_iff _).1 h
  · refine normV_of n _ (WithLp.linearEquiv 1 ℝ (Fin n → ℝ)).symm.toLinearMap (fun x h => ?_) (fun v => ?_)
    · exact (LinearEquiv.map_eq_zero_iff _).1 h
    · rw [(c42_norm_1 n v v v).1, PiLp.norm_eq_of_L1]
      rfl
  · intro hn
    exact normV_of n _ LinearMap.id (fun x h => h) fun v => c42_norm_inf_sup n hn v

/-- the rows of a matrix as vectors with the 1-norm -/
def rows1 (R C : Nat) : (Fin R → Fin C → ℝ) →ₗ[ℝ] (Fin R → PiLp 1 fun _ : Fin C => ℝ) :=
  LinearMap.pi fun r => (WithLp.linearEquiv 1 ℝ (Fin C → ℝ)).symm.toLinearMap ∘ₗ LinearMap.proj r

theorem rows1_norm (R C : Nat) (x : Fin R → Fin C → ℝ) (s : ℝ)
    (h : IsGreatest {y | y = 0 ∨ ∃ r : Fin R, y = ∑ c, |x r c|} s) : s = ‖rows1 R C x‖ := by
  have e : ∀ r, ‖rows1 R C x r‖ = ∑ c, |x r c| := fun r => PiLp.norm_eq_of_L1 _
  apply le_antisymm
  · rcases h.1 with h0 | ⟨r, hr⟩
    · rw [h0]; exact norm_nonneg _
    · rw [hr, ← e]; exact norm_le_pi_norm _ r
  · rw [pi_norm_le_iff_of_nonneg (h.2 (Or.inl rfl))]
    intro r
    rw [e]
    exact h.2 (Or.inr ⟨r, rfl⟩)

theorem rows1_inj (R C : Nat) (x : Fin R → Fin C → ℝ) (h : rows1 R C x = 0) : x = 0 := by
  funext r
  exact (LinearEquiv.map_eq_zero_iff (WithLp.linearEquiv 1 ℝ (Fin C → ℝ)).symm).1 (congrFun h r)

/-- **C42** `norm_fro`, `norm_inf` and `norm_1` of matrices are norms. -/
theorem c42_matrix_norm_laws (R C : Nat) :
    NormM R C (normFro R C) ∧ NormM R C (normInfM R C) ∧ NormM R C (norm1M R C) := by
  refine ⟨?_, ?_, ?_⟩
  · let φ : (Fin R → Fin C → ℝ) →ₗ[ℝ] EuclideanSpace ℝ (Fin R × Fin C) :=
      (WithLp.linearEquiv 2 ℝ (Fin R × Fin C → ℝ)).symm.toLinearMap ∘ₗ
        (LinearMap.pi fun p : Fin R × Fin C => LinearMap.proj p.2 ∘ₗ LinearMap.proj p.1)
    refine normM_of R C _ φ (fun x h => ?_) (fun v => ?_)
    · funext r c
      exact congrFun ((LinearEquiv.map_eq_zero_iff (WithLp.linearEquiv 2 ℝ (Fin R × Fin C → ℝ)).symm).1 h) (r, c)
    · rw [c42_norm_fro, EuclideanSpace.norm_eq, Fintype.sum_prod_type]
      simp only [Real.norm_eq_abs, sq_abs]
      rfl
  · refine normM_of R C _ (rows1 R C) (rows1_inj R C) (fun v => ?_)
    apply rows1_norm
    have h := (c42_matrix_norms R C v).1
    refine ⟨?_, ?_⟩
    · rcases h.1 with h0 | ⟨r, hr, e⟩
      · exact Or.inl h0
      · exact Or.inr ⟨⟨r, hr⟩, e⟩
    · rintro y (h0 | ⟨r, e⟩)
      · exact h.2 (Or.inl h0)
      · exact h.2 (Or.inr ⟨r, r.2, e⟩)
  · let τ : (Fin R → Fin C → ℝ) →ₗ[ℝ] (Fin C → Fin R → ℝ) :=
      LinearMap.pi fun c => LinearMap.pi fun r => LinearMap.proj c ∘ₗ LinearMap.proj r
    refine normM_of R C _ (rows1 C R ∘ₗ τ) (fun x h => ?_) (fun v => ?_)
    · funext r c
      exact congrFun (congrFun (rows1_inj C R (τ x) h) c) r
    · refine rows1_norm C R (τ _) _ ?_
      have h := (c42_matrix_norms R C v).2
      refine ⟨?_, ?_⟩
      · rcases h.1 with h0 | ⟨r, hr, e⟩
        · exact Or.inl h0
        · exact Or.inr ⟨⟨r, hr⟩, e⟩
      · rintro y (h0 | ⟨r, e⟩)
        · exact h.2 (Or.inl h0)
        · exact h.2 (Or.inr ⟨r, r.2, e⟩)

end TooN.Helpers
