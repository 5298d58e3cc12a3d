import Verif.Model.MatFun
import Verif.Proof.ExpLog
import Verif.Props.Helpers
import Mathlib.Analysis.Normed.Algebra.MatrixExponential
import Mathlib.Analysis.Matrix.Normed
import Mathlib.Topology.Instances.Matrix
/-!
# C44: matrix exponential (exp_taylor, exp)

`NormedSpace.exp` is Mathlib's exponential series.  The norm `‖·‖` is the operator norm of the supremum norm (maximal
absolute row sum).
-/
set_option linter.unusedSectionVars false
namespace TooN.MatFun
open Matrix Finset
open scoped Nat

variable {n : Nat}

open scoped Matrix.Norms.Operator in
theorem ninf_eq_norm (A : Sq n) : ninf A = ‖A‖ := by
  have h := (Helpers.c42_matrix_norms n n (store A)).1
  have hst : ∀ i j : Fin n, store A i j = A i j := fun i j => by simp [store]
  rw [Matrix.linfty_opNorm_def]
  unfold ninf
  apply le_antisymm
  · rcases h.1 with h0 | ⟨r, hr, e⟩
    · rw [h0]; exact NNReal.coe_nonneg _
    · rw [e]
      have : (∑ c : Fin n, |store A r c|) = ((∑ c : Fin n, ‖A ⟨r, hr⟩ c‖₊ : NNReal) : ℝ) := by
        push_cast
        refine Finset.sum_congr rfl fun c _ => ?_
        rw [← Real.norm_eq_abs, hst ⟨r, hr⟩ c]
      rw [this]
      exact_mod_cast Finset.le_sup (f := fun i : Fin n => ∑ j : Fin n, ‖A i j‖₊) (Finset.mem_univ ⟨r, hr⟩)
  · have hall : ∀ i : Fin n, ((∑ j : Fin n, ‖A i j‖₊ : NNReal) : ℝ) ≤ Helpers.normInfM n n (store A) := by
      intro i
      apply h.2
      refine Or.inr ⟨i, i.2, ?_⟩
      push_cast
      refine Finset.sum_congr rfl fun c _ => ?_
      rw [← Real.norm_eq_abs, hst i c]
    have h0 : 0 ≤ Helpers.normInfM n n (store A) := h.2 (Or.inl rfl)
    have : (Finset.univ : Finset (Fin n)).sup (fun i => ∑ j, ‖A i j‖₊) ≤ ⟨_, h0⟩ :=
      Finset.sup_le fun i _ => by exact_mod_cast hall i
    exact_mod_cast this

open scoped Matrix.Norms.Operator in
theorem norm_one_le : ‖(1 : Sq n)‖ ≤ 1 := by
  rw [Matrix.linfty_opNorm_def]
  have : (Finset.univ : Finset (Fin n)).sup (fun i => ∑ j, ‖(1 : Sq n) i j‖₊) ≤ 1 := by
    refine Finset.sup_le fun i _ => ?_
    rw [Finset.sum_eq_single i]
    · simp
    · intro j _ hj; simp [Matrix.one_apply_ne hj.symm]
    · simp
  exact_mod_cast this

open scoped Matrix.Norms.Operator in
theorem ninf_nonneg (A : Sq n) : 0 ≤ ninf A := by rw [ninf_eq_norm]; exact norm_nonneg _
open scoped Matrix.Norms.Operator in
theorem ninf_eq_zero (A : Sq n) : ninf A = 0 ↔ A = 0 := by rw [ninf_eq_norm]; exact norm_eq_zero
open scoped Matrix.Norms.Operator in
theorem ninf_smul (c : ℝ) (A : Sq n) : ninf (c • A) = |c| * ninf A := by
  rw [ninf_eq_norm, ninf_eq_norm, ← Real.norm_eq_abs]; exact norm_smul _ _

/-- the terms `A^j / j!` of the exponential series -/
noncomputable def expTerm (A : Sq n) (j : Nat) : Sq n := ((j ! : ℝ)⁻¹) • A ^ j

theorem expTerm_succ (A : Sq n) (j : Nat) : (1 / ((j : ℝ) + 1)) • (A * expTerm A j) = expTerm A (j + 1) := by
  unfold expTerm
  rw [Matrix.mul_smul, smul_smul, ← pow_succ']
  congr 1
  rw [Nat.factorial_succ]
  push_cast
  rw [mul_inv, one_div]

theorem expLoop_ret (tol : ℝ) (A : Sq n) (fuel k : Nat) (R : Sq n)
    (h : expTaylorLoop tol A fuel (∑ j ∈ range k, expTerm A j) (expTerm A k) ((k : ℝ) + 1) = .ret R) :
    ∃ K, k ≤ K ∧ R = ∑ j ∈ range K, expTerm A j ∧ ninf (expTerm A K) ≤ tol ∧
      ∀ j, k ≤ j → j < K → tol < ninf (expTerm A j) := by
  induction fuel generalizing k with
  | zero => simp [expTaylorLoop] at h
  | succ f ih =>
    rw [expTaylorLoop, add_sub_cancel_left] at h
    by_cases ht : ninf (expTerm A k) > tol
    · rw [if_pos ht, expTerm_succ, ← Finset.sum_range_succ] at h
      have e : (k : ℝ) + 1 + 1 = ((k + 1 : Nat) : ℝ) + 1 := by push_cast; ring
      rw [e] at h
      obtain ⟨K, h1, h2, h3, h4⟩ := ih (k + 1) h
      refine ⟨K, by omega, h2, h3, fun j hj hj' => ?_⟩
      rcases Nat.eq_or_lt_of_le hj with h | h
      · rw [← h]; exact ht
      · exact h4 j h hj'
    · rw [if_neg ht] at h
      simp only [Run.ret.injEq] at h
      exact ⟨k, le_rfl, h.symm, not_lt.1 ht, fun j hj hj' => by omega⟩

theorem expLoop_total (tol : ℝ) (A : Sq n) (K : Nat) (hK : ninf (expTerm A K) ≤ tol) (fuel k : Nat) (hk : k ≤ K) (hf : K < fuel + k) :
    ∃ R, expTaylorLoop tol A fuel (∑ j ∈ range k, expTerm A j) (expTerm A k) ((k : ℝ) + 1) = .ret R := by
  induction fuel generalizing k with
  | zero => omega
  | succ f ih =>
    rw [expTaylorLoop, add_sub_cancel_left]
    by_cases ht : ninf (expTerm A k) > tol
    · rw [if_pos ht, expTerm_succ, ← Finset.sum_range_succ]
      have e : (k : ℝ) + 1 + 1 = ((k + 1 : Nat) : ℝ) + 1 := by push_cast; ring
      rw [e]
      have : k ≠ K := fun h => by subst h; exact absurd hK (not_le.2 ht)
      exact ih (k + 1) (by omega) (by omega)
    · rw [if_neg ht]; exact ⟨_, rfl⟩

theorem expTaylor_start (tol : ℝ) (fuel : Nat) (A : Sq n) : expTaylor tol fuel A =
    expTaylorLoop tol A fuel (∑ j ∈ range 0, expTerm A j) (expTerm A 0) ((0 : Nat) + 1) := by
  unfold expTaylor expTerm; simp

/-- **C44** when the Taylor loop returns, its result is the partial sum of the exponential series up to the first term whose
norm passes the stopping test -/
theorem c44_exp_taylor_partial_sum (tol : ℝ) (fuel : Nat) (A R : Sq n) (h : expTaylor tol fuel A = .ret R) :
    ∃ K, R = ∑ j ∈ range K, ((j ! : ℝ)⁻¹) • A ^ j ∧ ninf (((K ! : ℝ)⁻¹) • A ^ K) ≤ tol ∧
      ∀ j, j < K → tol < ninf (((j ! : ℝ)⁻¹) • A ^ j) := by
  rw [expTaylor_start] at h
  obtain ⟨K, -, h2, h3, h4⟩ := expLoop_ret tol A fuel 0 R h
  exact ⟨K, h2, h3, fun j hj => h4 j (Nat.zero_le j) hj⟩

open scoped Matrix.Norms.Operator in
/-- **C44** it differs from the exponential by at most `tol * e^‖A‖` -/
theorem c44_exp_taylor_error (tol : ℝ) (fuel : Nat) (A R : Sq n) (h : expTaylor tol fuel A = .ret R) :
    ‖R - NormedSpace.exp A‖ ≤ tol * Real.exp ‖A‖ := by
  obtain ⟨K, h1, h2, -⟩ := c44_exp_taylor_partial_sum tol fuel A R h
  have := exp_tail norm_one_le A K
  rw [norm_sub_rev, h1]
  refine this.trans (mul_le_mul_of_nonneg_right ?_ (Real.exp_pos _).le)
  rw [← ninf_eq_norm]; exact h2

open scoped Matrix.Norms.Operator in
/-- **C44** in exact arithmetic (`tol = 0`) the loop returns iff the matrix is nilpotent, and then it returns the matrix
exponential -/
theorem c44_exp_taylor_exact (A : Sq n) :
    ((∃ fuel R, expTaylor 0 fuel A = .ret R) ↔ ∃ k, A ^ k = 0) ∧
    ∀ fuel R, expTaylor 0 fuel A = .ret R → R = NormedSpace.exp A := by
  refine ⟨⟨?_, ?_⟩, ?_⟩
  · rintro ⟨fuel, R, h⟩
    obtain ⟨K, -, h2, -⟩ := c44_exp_taylor_partial_sum 0 fuel A R h
    have h3 := (ninf_eq_zero _).1 (le_antisymm h2 (ninf_nonneg _))
    refine ⟨K, ?_⟩
    rcases smul_eq_zero.1 h3 with h | h
    · exact absurd h (by positivity)
    · exact h
  · rintro ⟨k, hk⟩
    have hK : ninf (expTerm A k) ≤ 0 := by
      unfold expTerm; rw [hk, smul_zero, (ninf_eq_zero _).2 rfl]
    obtain ⟨R, hR⟩ := expLoop_total 0 A k hK (k + 1) 0 (Nat.zero_le _) (by omega)
    exact ⟨k + 1, R, by rw [expTaylor_start]; exact hR⟩
  · intro fuel R h
    have := c44_exp_taylor_error 0 fuel A R h
    rw [zero_mul] at this
    have h2 := norm_le_zero_iff.1 this
    exact sub_eq_zero.1 h2

open scoped Matrix.Norms.Operator in
/-- **C44** with any positive tolerance the loop returns, for every matrix -/
theorem c44_exp_taylor_terminates (tol : ℝ) (htol : 0 < tol) (A : Sq n) :
    ∃ fuel₀, ∀ fuel, fuel₀ ≤ fuel → ∃ R, expTaylor tol fuel A = .ret R := by
  have hs := NormedSpace.exp_series_hasSum_exp' (𝕂 := ℝ) A
  have hz := hs.summable.tendsto_atTop_zero
  rw [Metric.tendsto_atTop] at hz
  obtain ⟨K, hK⟩ := hz tol htol
  have hK' : ninf (expTerm A K) ≤ tol := by
    have := hK K le_rfl
    rw [dist_zero_right] at this
    rw [ninf_eq_norm]; exact this.le
  refine ⟨K + 1, fun fuel hf => ?_⟩
  rw [expTaylor_start]
  exact expLoop_total tol A K hK' fuel 0 (Nat.zero_le _) (by omega)

theorem squarings (s : Nat) (r : Sq n) : forN s (fun _ r => r * r) r = r ^ (2 ^ s) := by
  induction s with
  | zero => simp
  | succ s ih => rw [forN_succ, ih, ← pow_two, ← pow_mul, ← pow_succ]

theorem scaling_spec (x : ℝ) (hx : 0 < x) : x ≤ 2 ^ scaling x ∧ (∀ s : Nat, x ≤ 2 ^ s → scaling x ≤ s) := by
  have h2 : (1 : ℝ) < 2 := one_lt_two
  unfold scaling
  constructor
  · have h1 : Real.logb 2 x ≤ ((max 0 ⌈Real.logb 2 x⌉).toNat : ℝ) := by
      have a : ((max 0 ⌈Real.logb 2 x⌉).toNat : Int) = max 0 ⌈Real.logb 2 x⌉ := Int.toNat_of_nonneg (le_max_left _ _)
      have b : ((max 0 ⌈Real.logb 2 x⌉).toNat : ℝ) = ((max 0 ⌈Real.logb 2 x⌉ : Int) : ℝ) := by exact_mod_cast congrArg (Int.cast : Int → ℝ) a
      rw [b]
      exact (Int.le_ceil _).trans (by exact_mod_cast le_max_right _ _)
    have := (Real.logb_le_iff_le_rpow h2 hx).1 h1
    rwa [Real.rpow_natCast] at this
  · intro s hs
    have h1 : Real.logb 2 x ≤ (s : ℝ) := by
      rw [Real.logb_le_iff_le_rpow h2 hx, Real.rpow_natCast]; exact hs
    have h3 : ⌈Real.logb 2 x⌉ ≤ (s : Int) := Int.ceil_le.2 (by exact_mod_cast h1)
    omega

/-- **C44** what `exp` computes: with the least `s ≥ 0` such that `norm_inf(m)/2^s ≤ 1`, the result is
`taylor(m/2^s)^(2^s)` -/
theorem c44_exp_scaling_squaring (tol : ℝ) (fuel : Nat) (m R : Sq n) (h : exp tol fuel m = .ret R) :
    ∃ s r, expTaylor tol fuel ((1 / (2 : ℝ) ^ s) • m) = .ret r ∧ R = r ^ (2 ^ s) ∧ s < 31 ∧
      ninf ((1 / (2 : ℝ) ^ s) • m) ≤ 1 ∧ ∀ s', ninf ((1 / (2 : ℝ) ^ s') • m) ≤ 1 → s ≤ s' := by
  unfold exp at h
  by_cases h0 : ninf m = 0
  · rw [if_pos h0] at h; cases h
  · rw [if_neg h0] at h
    have hpos : 0 < ninf m := lt_of_le_of_ne (ninf_nonneg _) (Ne.symm h0)
    by_cases h31 : 31 ≤ scaling (ninf m)
    · simp only [if_pos h31] at h; cases h
    · simp only [if_neg h31] at h
      obtain ⟨sp1, sp2⟩ := scaling_spec (ninf m) hpos
      have hn : ∀ s : Nat, ninf ((1 / (2 : ℝ) ^ s) • m) ≤ 1 ↔ ninf m ≤ 2 ^ s := by
        intro s
        rw [ninf_smul, abs_of_pos (by positivity), one_div, inv_mul_le_iff₀ (by positivity), mul_one]
      cases hr : expTaylor tol fuel ((1 / (2 : ℝ) ^ scaling (ninf m)) • m) with
      | ret r =>
        rw [hr] at h
        simp only [Run.ret.injEq] at h
        exact ⟨_, r, hr, by rw [← h, squarings], by omega, (hn _).2 sp1, fun s' hs' => sp2 s' ((hn s').1 hs')⟩
      | running => rw [hr] at h; cases h
      | divZero => rw [hr] at h; cases h
      | ub => rw [hr] at h; cases h

theorem exp_pow_scaled (m : Sq n) (s : Nat) : NormedSpace.exp ((1 / (2 : ℝ) ^ s) • m) ^ (2 ^ s) = NormedSpace.exp m := by
  rw [← Matrix.exp_nsmul, ← Nat.cast_smul_eq_nsmul ℝ, smul_smul]
  congr 1
  push_cast
  rw [mul_one_div_cancel (by positivity), one_smul]

open scoped Matrix.Norms.Operator in
/-- **C44** `exp(m)` approximates the matrix exponential, with an explicit bound in terms of the tolerance of the stopping
test and of the norm of `m`.  (For `tol = 0` the result is exact.) -/
theorem c44_exp_error (tol : ℝ) (fuel : Nat) (m R : Sq n) (htol : tol ≤ 1) (h : exp tol fuel m = .ret R) :
    ∃ s : Nat, (s = 0 ∨ (2 : ℝ) ^ s ≤ 2 * ‖m‖) ∧
      ‖R - NormedSpace.exp m‖ ≤ 2 ^ s * (2 * Real.exp 1) ^ (2 ^ s - 1) * (tol * Real.exp 1) := by
  obtain ⟨s, r, h1, h2, -, h4, h5⟩ := c44_exp_scaling_squaring tol fuel m R h
  refine ⟨s, ?_, ?_⟩
  · rcases Nat.eq_zero_or_pos s with h0 | h0
    · exact Or.inl h0
    · right
      by_contra hc
      rw [not_le] at hc
      have := h5 (s - 1) (by
        rw [ninf_smul, abs_of_pos (by positivity), one_div, inv_mul_le_iff₀ (by positivity), mul_one, ninf_eq_norm]
        have e : (2:ℝ) ^ s = 2 * 2 ^ (s - 1) := by rw [← pow_succ']; congr 1; omega
        rw [e] at hc
        linarith)
      omega
  · set B := (1 / (2 : ℝ) ^ s) • m with hB
    have hBn : ‖B‖ ≤ 1 := by rw [← ninf_eq_norm]; exact h4
    have herr := c44_exp_taylor_error tol fuel B r h1
    have htol0 : 0 ≤ tol := by
      obtain ⟨K, -, hK, -⟩ := c44_exp_taylor_partial_sum tol fuel B r h1
      exact (ninf_nonneg _).trans hK
    have he1 : Real.exp ‖B‖ ≤ Real.exp 1 := Real.exp_le_exp.2 hBn
    have herr' : ‖r - NormedSpace.exp B‖ ≤ tol * Real.exp 1 :=
      herr.trans (mul_le_mul_of_nonneg_left he1 htol0)
    have hE : ‖NormedSpace.exp B‖ ≤ Real.exp 1 := by
      have := exp_tail norm_one_le B 0
      simp only [Finset.range_zero, Finset.sum_empty, sub_zero, Nat.factorial_zero, Nat.cast_one, inv_one, one_smul, pow_zero] at this
      calc _ ≤ ‖(1 : Sq n)‖ * Real.exp ‖B‖ := this
        _ ≤ 1 * Real.exp 1 := mul_le_mul norm_one_le he1 (Real.exp_pos _).le zero_le_one
        _ = _ := one_mul _
    have hexp1 : 0 < Real.exp 1 := Real.exp_pos 1
    have hr : ‖r‖ ≤ 2 * Real.exp 1 := by
      calc ‖r‖ = ‖(r - NormedSpace.exp B) + NormedSpace.exp B‖ := by rw [sub_add_cancel]
        _ ≤ ‖r - NormedSpace.exp B‖ + ‖NormedSpace.exp B‖ := norm_add_le _ _
        _ ≤ tol * Real.exp 1 + Real.exp 1 := add_le_add herr' hE
        _ ≤ 1 * Real.exp 1 + Real.exp 1 := by gcongr
        _ = _ := by ring
    have hE' : ‖NormedSpace.exp B‖ ≤ 2 * Real.exp 1 := hE.trans (by linarith)
    obtain ⟨N, hN⟩ : ∃ N, 2 ^ s = N + 1 := ⟨2 ^ s - 1, (Nat.sub_add_cancel Nat.one_le_two_pow).symm⟩
    have hp := norm_pow_sub_pow_le norm_one_le r (NormedSpace.exp B) (2 * Real.exp 1) hr hE' N
    rw [← exp_pow_scaled m s, ← hB, h2, hN, Nat.add_sub_cancel]
    refine hp.trans ?_
    have e : (2 : ℝ) ^ s = (N : ℝ) + 1 := by exact_mod_cast congrArg (Nat.cast : Nat → ℝ) hN
    rw [e]
    exact mul_le_mul_of_nonneg_left herr' (by positivity)

/-- **C44** in exact arithmetic: whatever `exp` returns is the matrix exponential, and it returns for every nonzero nilpotent
matrix of norm at most 2^30 -/
theorem c44_exp_exact (m : Sq n) :
    (∀ fuel R, exp 0 fuel m = .ret R → R = NormedSpace.exp m) ∧
    (m ≠ 0 → (∃ k, m ^ k = 0) → ninf m ≤ 2 ^ 30 → ∃ fuel R, exp 0 fuel m = .ret R) := by
  constructor
  · intro fuel R h
    obtain ⟨s, r, h1, h2, -⟩ := c44_exp_scaling_squaring 0 fuel m R h
    rw [h2, (c44_exp_taylor_exact _).2 fuel r h1, exp_pow_scaled]
  · rintro hm ⟨k, hk⟩ hn
    have hpos : 0 < ninf m := lt_of_le_of_ne (ninf_nonneg _) (fun h => hm ((ninf_eq_zero m).1 h.symm))
    have hs := (scaling_spec (ninf m) hpos).2 30 hn
    obtain ⟨fuel, r, hr⟩ := (c44_exp_taylor_exact ((1 / (2 : ℝ) ^ scaling (ninf m)) • m)).1.2
      ⟨k, by rw [smul_pow, hk, smul_zero]⟩
    refine ⟨fuel, forN (scaling (ninf m)) (fun _ r => r * r) r, ?_⟩
    unfold exp
    rw [if_neg hpos.ne']
    simp only
    rw [if_neg (by omega), hr]

/-- **C44** with a positive tolerance `exp` returns for every nonzero matrix of norm at most 2^30 -/
theorem c44_exp_terminates (tol : ℝ) (htol : 0 < tol) (m : Sq n) (hm : m ≠ 0) (hn : ninf m ≤ 2 ^ 30) :
    ∃ fuel₀, ∀ fuel, fuel₀ ≤ fuel → ∃ R, exp tol fuel m = .ret R := by
  have hpos : 0 < ninf m := lt_of_le_of_ne (ninf_nonneg _) (fun h => hm ((ninf_eq_zero m).1 h.symm))
  have hs := (scaling_spec (ninf m) hpos).2 30 hn
  obtain ⟨f0, hf⟩ := c44_exp_taylor_terminates tol htol ((1 / (2 : ℝ) ^ scaling (ninf m)) • m)
  refine ⟨f0, fun fuel hfu => ?_⟩
  obtain ⟨r, hr⟩ := hf fuel hfu
  unfold exp
  rw [if_neg hpos.ne']
  simp only
  rw [if_neg (by omega), hr]
  exact ⟨_, rfl⟩

/-- **C44** `exp` of the zero matrix, and of a matrix of norm above 2^30, has undefined behaviour (conversion of minus
infinity to `int`; shift by 31 or more) -/
theorem c44_exp_ub (tol : ℝ) (fuel : Nat) (m : Sq n) :
    exp tol fuel (0 : Sq n) = .ub ∧ (2 ^ 30 < ninf m → exp tol fuel m = .ub) := by
  constructor
  · unfold exp; rw [if_pos ((ninf_eq_zero _).2 rfl)]
  · intro h
    have hpos : 0 < ninf m := lt_trans (by positivity) h
    unfold exp
    rw [if_neg hpos.ne']
    simp only
    rw [if_pos]
    by_contra hc
    have := (scaling_spec (ninf m) hpos).1
    have h2 : (2 : ℝ) ^ scaling (ninf m) ≤ 2 ^ 30 := pow_le_pow_right₀ one_le_two (by omega)
    linarith

example : ∃ fuel R, exp 0 fuel !![0, 3; 0, 0] = .ret R ∧ R = NormedSpace.exp !![0, 3; 0, 0] := by
  have hne : (!![0, 3; 0, 0] : Sq 2) ≠ 0 := by
    intro h; have := congrFun (congrFun h 0) 1; norm_num at this
  have hnil : (!![0, 3; 0, 0] : Sq 2) ^ 2 = 0 := by
    rw [pow_two]; ext i j; fin_cases i <;> fin_cases j <;> simp [Matrix.mul_apply, Fin.sum_univ_two]
  have hle : ninf (!![0, 3; 0, 0] : Sq 2) ≤ 2 ^ 30 := by
    rcases (Helpers.c42_matrix_norms 2 2 (store (!![0, 3; 0, 0] : Sq 2))).1.1 with h | ⟨r, hr, h⟩
    · unfold ninf; rw [h]; positivity
    · unfold ninf; rw [h]
      interval_cases r <;> norm_num [Fin.sum_univ_two, store]
  obtain ⟨fuel, R, h⟩ := (c44_exp_exact _).2 hne ⟨2, hnil⟩ hle
  exact ⟨fuel, R, h, (c44_exp_exact _).1 fuel R h⟩

end TooN.MatFun
