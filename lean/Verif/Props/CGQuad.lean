import Verif.Props.CG
import Mathlib.LinearAlgebra.Matrix.Symmetric
import Mathlib.LinearAlgebra.LinearIndependent.Lemmas
import Mathlib.LinearAlgebra.Dimension.Constructions
import Mathlib.LinearAlgebra.FiniteDimensional.Lemmas
/-!
# C48: conjugacy on quadratic functions

For `f(x) = ½ xᵀAx - bᵀx` (gradient `Ax - b`, `A` symmetric) and exact line searches the update formula of `update_vectors_PR`
produces mutually orthogonal gradients and `A`-conjugate directions, so the optimisation ends within `n` iterations.
-/
set_option linter.unusedSectionVars false
namespace TooN.CG
open Matrix

variable {n : Nat}

/-- `K` iterations with exact line searches: step `k` moves `x` by `-t_k h_k` to a point where the gradient is orthogonal to `h_k`,
and then updates the vectors with the gradient there -/
structure ExactRun (A : Matrix (Fin n) (Fin n) ℝ) (b : Pt n) (K : Nat) (s : Nat → St n) (t : Nat → ℝ) : Prop where
  g0 : (s 0).g = A *ᵥ (s 0).x - b
  h0 : (s 0).h = (s 0).g
  exact : ∀ k < K, (A *ᵥ ((s k).x - t k • (s k).h) - b) ⬝ᵥ (s k).h = 0
  step : ∀ k < K, updatePR { s k with x := (s k).x - t k • (s k).h } (A *ᵥ ((s k).x - t k • (s k).h) - b) = some (s (k + 1))

theorem exactRun_step {A : Matrix (Fin n) (Fin n) ℝ} {b : Pt n} {K : Nat} {s : Nat → St n} {t : Nat → ℝ}
    (hr : ExactRun A b K s t) {k : Nat} (hk : k < K) :
    (s k).g ≠ 0 ∧ (s (k + 1)).x = (s k).x - t k • (s k).h ∧ (s (k + 1)).g = A *ᵥ (s (k + 1)).x - b ∧
      (s (k + 1)).h = (s (k + 1)).g +
        (((s (k + 1)).g ⬝ᵥ ((s (k + 1)).g - (s k).g)) / ((s k).g ⬝ᵥ (s k).g)) • (s k).h ∧
      (s (k + 1)).g ⬝ᵥ (s k).h = 0 := by
  have h := hr.step k hk
  have hp := c48_polak_ribiere { s k with x := (s k).x - t k • (s k).h } (A *ᵥ ((s k).x - t k • (s k).h) - b)
  obtain ⟨e1, e2, e3, e4, e5, e6, e7⟩ := hp.2 _ h
  refine ⟨fun h0 => ?_, e5, ?_, ?_, ?_⟩
  · rw [hp.1.2 h0] at h; cases h
  · rw [e1, e5]
  · rw [e1]; exact e7
  · rw [e1]; exact hr.exact k hk

theorem exactRun_g {A : Matrix (Fin n) (Fin n) ℝ} {b : Pt n} {K : Nat} {s : Nat → St n} {t : Nat → ℝ}
    (hr : ExactRun A b K s t) (k : Nat) (hk : k ≤ K) : (s k).g = A *ᵥ (s k).x - b := by
  cases k with
  | zero => exact hr.g0
  | succ k => exact (exactRun_step hr hk).2.2.1

/-- Gradients are mutually orthogonal and directions mutually conjugate. -/
theorem c48_conjugate (A : Matrix (Fin n) (Fin n) ℝ) (hA : A.IsSymm) (b : Pt n) (K : Nat) (s : Nat → St n) (t : Nat → ℝ)
    (hr : ExactRun A b K s t) : ∀ j ≤ K, ∀ i < j, (s i).g ⬝ᵥ (s j).g = 0 ∧ (s i).h ⬝ᵥ (A *ᵥ (s j).h) = 0 := by
  have sym : ∀ u v : Pt n, u ⬝ᵥ (A *ᵥ v) = v ⬝ᵥ (A *ᵥ u) := by
    intro u v
    rw [dotProduct_mulVec, ← mulVec_transpose, hA.eq, dotProduct_comm]
  -- the recurrence of the gradients
  have hrec : ∀ k < K, (s (k + 1)).g = (s k).g - t k • (A *ᵥ (s k).h) := by
    intro k hk
    rw [(exactRun_step hr hk).2.2.1, (exactRun_step hr hk).2.1, exactRun_g hr k hk.le, mulVec_sub, mulVec_smul]
    abel
  -- slope along the direction
  have slope : ∀ k ≤ K, (s k).g ⬝ᵥ (s k).h = (s k).g ⬝ᵥ (s k).g := by
    intro k hk
    cases k with
    | zero => rw [hr.h0]
    | succ k =>
      obtain ⟨-, -, -, e, z⟩ := exactRun_step hr hk
      rw [e, dotProduct_add, dotProduct_smul, z, smul_zero, add_zero]
  have curv : ∀ k < K, t k * ((s k).h ⬝ᵥ (A *ᵥ (s k).h)) = (s k).g ⬝ᵥ (s k).g := by
    intro k hk
    obtain ⟨-, -, -, -, z⟩ := exactRun_step hr hk
    rw [hrec k hk, sub_dotProduct, smul_dotProduct, slope k hk.le, smul_eq_mul, dotProduct_comm (A *ᵥ _)] at z
    linarith
  have gpos : ∀ k < K, (s k).g ⬝ᵥ (s k).g ≠ 0 := fun k hk h =>
    (exactRun_step hr hk).1 (dotProduct_self_eq_zero.1 h)
  have tne : ∀ k < K, t k ≠ 0 := by
    intro k hk h
    have := curv k hk
    rw [h, zero_mul] at this
    exact gpos k hk this.symm
  have Ah : ∀ k < K, ∀ v : Pt n, v ⬝ᵥ (A *ᵥ (s k).h) = (v ⬝ᵥ (s k).g - v ⬝ᵥ (s (k + 1)).g) / t k := by
    intro k hk v
    rw [hrec k hk, dotProduct_sub, dotProduct_smul, smul_eq_mul]
    field_simp [tne k hk]
    ring
  intro j
  induction j with
  | zero => intro _ i hi; omega
  | succ k ih =>
    intro hk i hi
    have ihk := ih (by omega)
    have hkK : k < K := by omega
    obtain ⟨-, -, -, eh, ez⟩ := exactRun_step hr hkK
    -- every gradient is a combination of two consecutive directions
    have gh : ∀ i ≤ k, ∃ c : ℝ, ∀ v : Pt n, v ⬝ᵥ (s i).g = v ⬝ᵥ (s i).h - c * (v ⬝ᵥ (s (i - 1)).h) ∧ (i = 0 → c = 0) := by
      intro i hi
      cases i with
      | zero => exact ⟨0, fun v => ⟨by rw [hr.h0]; ring, fun _ => rfl⟩⟩
      | succ i =>
        obtain ⟨-, -, -, e, -⟩ := exactRun_step hr (show i < K by omega)
        refine ⟨((s (i + 1)).g ⬝ᵥ ((s (i + 1)).g - (s i).g)) / ((s i).g ⬝ᵥ (s i).g), fun v => ⟨?_, by omega⟩⟩
        rw [e, dotProduct_add, dotProduct_smul, smul_eq_mul, Nat.add_sub_cancel]
        ring
    -- conjugacy of `h_k` to all earlier directions, as one statement
    have hc : ∀ i < k, (A *ᵥ (s k).h) ⬝ᵥ (s i).h = 0 := fun i hi => by rw [dotProduct_comm]; exact (ihk i hi).2
    -- orthogonality
    have orth : ∀ i ≤ k, (s (k + 1)).g ⬝ᵥ (s i).g = 0 := by
      intro i hi
      obtain ⟨c, hcv⟩ := gh i hi
      rcases Nat.lt_or_eq_of_le hi with hlt | rfl
      · rw [hrec k hkK, sub_dotProduct, smul_dotProduct, (hcv (A *ᵥ (s k).h)).1, hc i hlt,
          dotProduct_comm (s k).g, (ihk i hlt).1]
        rcases Nat.eq_zero_or_pos i with rfl | hpos
        · rw [(hcv 0).2 rfl]; simp
        · rw [hc (i - 1) (by omega)]; simp
      · rw [(hcv _).1, ez]
        rcases Nat.eq_zero_or_pos i with rfl | hpos
        · rw [(hcv 0).2 rfl]; simp
        · obtain ⟨m, rfl⟩ : ∃ m, i = m + 1 := ⟨i - 1, by omega⟩
          obtain ⟨-, -, -, -, ez'⟩ := exactRun_step hr (show m < K by omega)
          rw [Nat.add_sub_cancel, hrec (m + 1) hkK, sub_dotProduct, smul_dotProduct, ez', hc m (by omega)]
          simp
    refine ⟨by rw [dotProduct_comm]; exact orth i (by omega), ?_⟩
    -- conjugacy
    have gk : (s (k + 1)).g ⬝ᵥ ((s (k + 1)).g - (s k).g) = (s (k + 1)).g ⬝ᵥ (s (k + 1)).g := by
      rw [dotProduct_sub, orth k le_rfl, sub_zero]
    rw [sym, eh, add_dotProduct, smul_dotProduct, smul_eq_mul, gk]
    rcases Nat.lt_or_eq_of_le (show i ≤ k by omega) with hlt | rfl
    · rw [Ah i (by omega) ((s (k + 1)).g), orth i hlt.le, orth (i + 1) (by omega), sym, (ihk i hlt).2]
      simp
    · rw [Ah i hkK ((s (i + 1)).g), orth i le_rfl]
      have hcurv := curv i hkK
      have h1 := gpos i hkK
      have h2 := tne i hkK
      have : (s i).h ⬝ᵥ (A *ᵥ (s i).h) = (s i).g ⬝ᵥ (s i).g / t i := by
        rw [← hcurv]; field_simp
      rw [this]
      field_simp
      ring

/-- An exact run on a quadratic function of `n` variables has at most `n` iterations: the gradient is then zero. -/
theorem c48_quadratic_terminates (A : Matrix (Fin n) (Fin n) ℝ) (hA : A.IsSymm) (b : Pt n) (K : Nat) (s : Nat → St n)
    (t : Nat → ℝ) (hr : ExactRun A b K s t) : K ≤ n ∧ (K = n → A *ᵥ (s K).x = b) := by
  have orth : ∀ i j : Nat, i ≤ K → j ≤ K → i ≠ j → (s i).g ⬝ᵥ (s j).g = 0 := by
    intro i j hi hj hne
    rcases Nat.lt_or_gt_of_ne hne with h | h
    · exact (c48_conjugate A hA b K s t hr j hj i h).1
    · rw [dotProduct_comm]; exact (c48_conjugate A hA b K s t hr i hi j h).1
  have key : ∀ M : Nat, M ≤ K + 1 → (∀ k < M, (s k).g ≠ 0) → M ≤ n := by
    intro M hM hne
    have hli : LinearIndependent ℝ (fun i : Fin M => (s i).g) := by
      rw [Fintype.linearIndependent_iff]
      intro c hc i
      have h1 : (s i).g ⬝ᵥ (∑ j : Fin M, c j • (s j).g) = 0 := by rw [hc]; simp
      rw [dotProduct_sum, Finset.sum_eq_single i] at h1
      · rw [dotProduct_smul, smul_eq_mul] at h1
        exact (mul_eq_zero.1 h1).resolve_right fun h => hne i i.2 (dotProduct_self_eq_zero.1 h)
      · intro j _ hj
        rw [dotProduct_smul, orth i j (by omega) (by omega) (fun h => hj (Fin.ext h.symm)), smul_zero]
      · intro h; exact absurd (Finset.mem_univ i) h
    have := hli.fintype_card_le_finrank
    simpa using this
  refine ⟨key K (by omega) fun k hk => (exactRun_step hr hk).1, ?_⟩
  intro hK
  by_contra hne
  have := key (K + 1) le_rfl fun k hk => by
    rcases Nat.lt_or_eq_of_le (Nat.lt_succ_iff.1 hk) with h | rfl
    · exact (exactRun_step hr h).1
    · rw [exactRun_g hr k le_rfl]
      exact fun h => hne (sub_eq_zero.1 h)
  omega

/-- a run of two iterations in two variables: `A = diag(1, 2)`, `b = 0`, from `(2, 1)` to the minimum -/
example (z : St 2) : ∃ s t, ExactRun !![1, 0; 0, 2] 0 2 s t ∧ (s 2).x = 0 := by
  let s0 : St 2 := { z with x := ![2, 1], g := ![2, 2], h := ![2, 2] }
  let s1 : St 2 := { s0 with x := ![2 / 3, -(1 / 3)], g := ![2 / 3, -(2 / 3)], h := ![8 / 9, -(4 / 9)],
                             oldG := ![2, 2], oldH := ![2, 2], minusH := -![8 / 9, -(4 / 9)] }
  let s2 : St 2 := { s1 with x := ![0, 0], g := ![0, 0], h := ![0, 0],
                             oldG := ![2 / 3, -(2 / 3)], oldH := ![8 / 9, -(4 / 9)], minusH := -![0, 0] }
  have x1 : s0.x - (2 / 3 : ℝ) • s0.h = ![2 / 3, -(1 / 3)] := by
    ext i; fin_cases i <;> norm_num [s0]
  have x2 : s1.x - (3 / 4 : ℝ) • s1.h = ![0, 0] := by
    ext i; fin_cases i <;> norm_num [s1]
  have g1 : !![1, 0; 0, 2] *ᵥ ![2 / 3, -(1 / 3)] - (0 : Pt 2) = ![2 / 3, -(2 / 3)] := by
    ext i; fin_cases i <;> norm_num [mulVec, dotProduct, Fin.sum_univ_two]
  have g2 : !![1, 0; 0, 2] *ᵥ ![0, 0] - (0 : Pt 2) = ![0, 0] := by
    ext i; fin_cases i <;> norm_num [mulVec, dotProduct, Fin.sum_univ_two]
  refine ⟨fun k => if k = 0 then s0 else if k = 1 then s1 else s2, fun k => if k = 0 then 2 / 3 else 3 / 4, ⟨?_, ?_, ?_, ?_⟩, ?_⟩
  · ext i; fin_cases i <;> norm_num [s0, mulVec, dotProduct, Fin.sum_univ_two]
  · rfl
  · intro k hk
    rcases (show k = 0 ∨ k = 1 by omega) with rfl | rfl
    · simp only [if_true]
      rw [x1, g1]
      norm_num [s0, dotProduct, Fin.sum_univ_two]
    · simp only [one_ne_zero, if_true, if_false]
      rw [x2, g2]
      norm_num [s1, dotProduct, Fin.sum_univ_two]
  · intro k hk
    rcases (show k = 0 ∨ k = 1 by omega) with rfl | rfl
    · simp only [if_true, zero_add, one_ne_zero, if_false]
      rw [x1, g1]
      unfold updatePR
      have h1 : (![2, 2] : Pt 2) ⬝ᵥ ![2, 2] = 8 := by norm_num [dotProduct, Fin.sum_univ_two]
      have h2 : (![2 / 3, -(2 / 3)] : Pt 2) ⬝ᵥ ![2 / 3, -(2 / 3)] = 8 / 9 := by norm_num [dotProduct, Fin.sum_univ_two]
      have h3 : (![2, 2] : Pt 2) ⬝ᵥ ![2 / 3, -(2 / 3)] = 0 := by norm_num [dotProduct, Fin.sum_univ_two]
      have h4 : (![2 / 3, -(2 / 3)] : Pt 2) + ((8 / 9 - 0) / 8 : ℝ) • ![2, 2] = ![8 / 9, -(4 / 9)] := by
        ext i; fin_cases i <;> norm_num
      simp only [s0, s1, h1, h2, h3, h4]
      norm_num
    · simp only [one_ne_zero, if_true, if_false, show (1 + 1 : Nat) ≠ 0 by norm_num, show (1 + 1 : Nat) ≠ 1 by norm_num]
      rw [x2, g2]
      unfold updatePR
      have h2 : (![2 / 3, -(2 / 3)] : Pt 2) ⬝ᵥ ![2 / 3, -(2 / 3)] = 8 / 9 := by norm_num [dotProduct, Fin.sum_univ_two]
      have h3 : (![2 / 3, -(2 / 3)] : Pt 2) ⬝ᵥ ![0, 0] = 0 := by norm_num [dotProduct, Fin.sum_univ_two]
      have h5 : (![0, 0] : Pt 2) ⬝ᵥ ![0, 0] = 0 := by norm_num [dotProduct, Fin.sum_univ_two]
      have h4 : (![0, 0] : Pt 2) + ((0 - 0) / (8 / 9) : ℝ) • ![8 / 9, -(4 / 9)] = ![0, 0] := by
        ext i; fin_cases i <;> norm_num
      simp only [s1, s2, h2, h3, h4, h5]
      norm_num
  · simp only [s2]
    ext i; fin_cases i <;> rfl

end TooN.CG
