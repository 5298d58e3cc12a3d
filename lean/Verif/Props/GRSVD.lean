import Verif.Proof.GRSVD10
import Verif.Spec.GRSVD
import Verif.Proof.SVD
import Mathlib.LinearAlgebra.Matrix.Charpoly.Basic
/-!
# C32: `GR_SVD`
-/
set_option linter.unusedSectionVars false
set_option linter.unusedVariables false
namespace TooN.GRSVD
open Finset Matrix
open scoped Classical
noncomputable section
section
variable (M N : Nat) (wantU wantV : Bool) (negl : ℝ → ℝ → Prop) (ε : ℝ) (fuel : Nat) (A : Mat ℝ) (d0 e0 : Vec ℝ) (V0 : Mat ℝ)

/-- **C32** the constructor always returns: it never divides by zero, never reaches `throw(0)`, never reads outside a vector, and makes
at most 31 calls of `Diagonalize_SubLoop` for each `k` (`fuel ≥ 31` is enough). -/
theorem c32_returns (hN : 1 ≤ N) (ht : RoundingTest negl ε) (hf : 31 ≤ fuel) :
    ∃ st, svd M N wantU wantV negl fuel A d0 e0 V0 = some st ∧ st.nError < N := by
  obtain ⟨b, st, W, V, _, h1, _, _, _, _, h2, _⟩ := svd_core (M := M) (N := N) (wU := wantU) (wV := wantV) hN negl (fun a => ε * a) ht.zero ht.small fuel hf A d0 e0 V0
  exact ⟨st, h1, h2⟩

theorem form_upper (k : Nat) (hk : k < N) (d e : Vec ℝ) (X Y : Mat ℝ) (R : Nat) (a : Fin R) (c : Fin N) :
    form N k d e (X a) (Y c) = (asM R N X * upperBidiagonal N d e k * (asM N N Y)ᵀ) a c := by
  have hE : form N k d e (X a) (Y c) = form N (N - 1) d (fun j => if j ≤ k then e j else 0) (X a) (Y c) := by
    refine Finset.sum_congr rfl (fun p hp => ?_)
    have hp := mem_range.mp hp
    simp only [row]
    by_cases h1 : p + 1 ≤ k
    · rw [if_pos h1, if_pos (by omega)]
    · rw [if_neg h1]
      simp only [ite_self]
  rw [hE, form_bidiag (by omega), Matrix.mul_assoc, Matrix.mul_apply,
    ← Fin.sum_univ_eq_sum_range (fun p => ∑ q ∈ range N, X a p * bidiag d (fun j => if j ≤ k then e j else 0) p q * Y c q)]
  refine Finset.sum_congr rfl (fun p _ => ?_)
  rw [Matrix.mul_apply, Finset.mul_sum, ← Fin.sum_univ_eq_sum_range (fun q => X a p * bidiag d (fun j => if j ≤ k then e j else 0) p q * Y c q)]
  refine Finset.sum_congr rfl (fun q _ => ?_)
  simp only [asM_apply, Matrix.transpose_apply, upperBidiagonal, Matrix.of_apply, bidiag, Fin.ext_iff]
  rw [mul_assoc]
  congr 2
  by_cases h1 : (p : Nat) = q
  · rw [if_pos h1, if_pos h1]
  · rw [if_neg h1, if_neg h1]
    by_cases h2 : (q : Nat) = p + 1
    · rw [if_pos h2]
      by_cases h3 : (q : Nat) ≤ k
      · rw [if_pos h3, if_pos ⟨h2, h3⟩]
      · rw [if_neg h3, if_neg (fun h => h3 h.2)]
    · rw [if_neg h2, if_neg (fun h => h2 h.1)]

theorem upper_zero (d e : Vec ℝ) : upperBidiagonal N d e 0 = diagonal (asV N d) := by
  ext a b
  simp only [upperBidiagonal, Matrix.of_apply, Matrix.diagonal_apply, asV_apply]
  by_cases h : a = b
  · rw [if_pos h, if_pos h]
  · rw [if_neg h, if_neg h, if_neg (by omega)]

/-- the results, bounded as far as the iteration got -/
theorem core_bound (hN : 1 ≤ N) (ht : RoundingTest negl ε) (hε : 0 ≤ ε) (hf : 31 ≤ fuel) (st : St)
    (hs : svd M N true true negl fuel A d0 e0 V0 = some st) (a : Fin M) (c : Fin N) :
    |asM M N A a c - (asM M N st.U * upperBidiagonal N st.d st.e st.nError * (asM N N st.V)ᵀ) a c| ≤ 186 * N * ε * frob M N A := by
  obtain ⟨b, st', W, V, hb, h1, _, _, h4, h5, h6, _, _, h9⟩ := svd_core (M := M) (N := N) (wU := true) (wV := true) hN negl (fun a => ε * a) ht.zero ht.small fuel hf A d0 e0 V0
  rw [hs] at h1
  obtain rfl := Option.some.inj h1
  have := h9 a c (by omega) c.2
  rw [if_pos a.2] at this
  rw [← form_upper N st.nError h6 st.d st.e st.U st.V M a c, form_local h6 st.d st.e (st.U a) (st.V c) (W a) (V c) (fun p hp => h4 rfl a p a.2 hp)
    (fun p hp => by rw [h5 rfl c c.2]), asM_apply]
  refine this.trans ?_
  have ha := anorm_le M N hN A d0 e0 b hb
  have : 93 * (N : ℝ) * (ε * b.anorm) ≤ 93 * N * (ε * (2 * frob M N A)) := by
    refine mul_le_mul_of_nonneg_left (mul_le_mul_of_nonneg_left ha hε) (by positivity)
  linarith

/-- **C32** when the iteration converged, `U diag(d) Vᵀ` is `A` up to `186 N ε ‖A‖`, whatever the rounding test decided at each of its uses. -/
theorem c32_decomposition (hN : 1 ≤ N) (ht : RoundingTest negl ε) (hε : 0 ≤ ε) (hf : 31 ≤ fuel) (st : St)
    (hs : svd M N true true negl fuel A d0 e0 V0 = some st) (hc : st.nError = 0) (a : Fin M) (c : Fin N) :
    |asM M N A a c - (asM M N st.U * diagonal (asV N st.d) * (asM N N st.V)ᵀ) a c| ≤ 186 * N * ε * frob M N A := by
  have := core_bound M N negl ε fuel A d0 e0 V0 hN ht hε hf st hs a c
  rwa [hc, upper_zero] at this

/-- **C32** in exact arithmetic `A = U diag(d) Vᵀ`. -/
theorem c32_exact (hN : 1 ≤ N) (hf : 31 ≤ fuel) (st : St) (hs : svd M N true true exactTest fuel A d0 e0 V0 = some st) (hc : st.nError = 0) :
    asM M N A = asM M N st.U * diagonal (asV N st.d) * (asM N N st.V)ᵀ := by
  ext a c
  have := c32_decomposition M N exactTest 0 fuel A d0 e0 V0 hN exactTest_ok le_rfl hf st hs hc a c
  rw [mul_zero, zero_mul] at this
  exact sub_eq_zero.mp (abs_eq_zero.mp (le_antisymm this (abs_nonneg _)))

/-- **C32** when the limit of 30 iterations is hit at `k`, the error flag is `k`, never `0`, and `A` is still `U B Vᵀ` with `B` bidiagonal
in the first `k + 1` rows and diagonal below. -/
theorem c32_iteration_limit (hN : 1 ≤ N) (ht : RoundingTest negl ε) (hε : 0 ≤ ε) (hf : 31 ≤ fuel) (st : St)
    (hs : svd M N true true negl fuel A d0 e0 V0 = some st) (a : Fin M) (c : Fin N) :
    |asM M N A a c - (asM M N st.U * upperBidiagonal N st.d st.e st.nError * (asM N N st.V)ᵀ) a c| ≤ 186 * N * ε * frob M N A :=
  core_bound M N negl ε fuel A d0 e0 V0 hN ht hε hf st hs a c

/-- **C32** `V` is orthogonal; `U` has orthonormal columns if `M ≥ N` and orthonormal rows if `M ≤ N`; converged or not. -/
theorem c32_orthogonal (hN : 1 ≤ N) (ht : RoundingTest negl ε) (hf : 31 ≤ fuel) (st : St)
    (hs : svd M N wantU wantV negl fuel A d0 e0 V0 = some st) :
    (wantV = true → (asM N N st.V)ᵀ * asM N N st.V = 1) ∧
    (wantU = true → N ≤ M → (asM M N st.U)ᵀ * asM M N st.U = 1) ∧
    (wantU = true → M ≤ N → asM M N st.U * (asM M N st.U)ᵀ = 1) := by
  obtain ⟨b, st', W, V, hb, h1, h2, h3, h4, h5, _⟩ := svd_core (M := M) (N := N) (wU := wantU) (wV := wantV) hN negl (fun a => ε * a) ht.zero ht.small fuel hf A d0 e0 V0
  rw [hs] at h1
  obtain rfl := Option.some.inj h1
  refine ⟨fun hw => ?_, fun hw hNM => ?_, fun hw hMN => ?_⟩
  · have : asM N N st.V = asM N N V := by rw [asM_eq_iff]; intro i j hi _; rw [h5 hw i hi]
    rw [this]; exact h3
  · rw [max_eq_left hNM] at h2
    ext p q
    have := congrFun (congrFun h2 ⟨p, by omega⟩) ⟨q, by omega⟩
    rw [Matrix.mul_apply, Matrix.one_apply] at this ⊢
    simp only [Matrix.transpose_apply, asM_apply, Fin.mk.injEq] at this ⊢
    rw [Finset.sum_congr rfl (fun a _ => by rw [h4 hw a p a.2 p.2, h4 hw a q a.2 q.2] : ∀ a ∈ (univ : Finset (Fin M)), st.U a p * st.U a q = W a p * W a q), this]
    simp only [Fin.ext_iff]
  · rw [max_eq_right hMN] at h2
    ext p q
    have := orth_rows W h2 p q (by omega) (by omega)
    rw [Matrix.mul_apply, Matrix.one_apply]
    simp only [Matrix.transpose_apply, asM_apply]
    rw [Finset.sum_congr rfl (fun a _ => by rw [h4 hw p a p.2 a.2, h4 hw q a q.2 a.2] : ∀ a ∈ (univ : Finset (Fin N)), st.U p a * st.U q a = W p a * W q a),
      Fin.sum_univ_eq_sum_range (fun a => W p a * W q a), this]
    simp only [Fin.ext_iff]

/-- **C32** the singular values reported are not negative. -/
theorem c32_nonneg (hN : 1 ≤ N) (ht : RoundingTest negl ε) (hf : 31 ≤ fuel) (st : St)
    (hs : svd M N wantU wantV negl fuel A d0 e0 V0 = some st) (hc : st.nError = 0) (i : Nat) (hi : i < N) : 0 ≤ st.d i := by
  obtain ⟨b, st', W, V, hb, h1, _, _, _, _, _, h7, h8, _⟩ := svd_core (M := M) (N := N) (wU := wantU) (wV := wantV) hN negl (fun a => ε * a) ht.zero ht.small fuel hf A d0 e0 V0
  rw [hs] at h1
  obtain rfl := Option.some.inj h1
  by_cases h : i = 0
  · rw [h]; exact h8 hc
  · exact h7 i (by omega) hi

/-- in exact arithmetic: `A` padded with zero rows is `W diag(d) Vᵀ` -/
theorem exact_core (hN : 1 ≤ N) (hf : 31 ≤ fuel) (st : St)
    (hs : svd M N wantU wantV exactTest fuel A d0 e0 V0 = some st) (hc : st.nError = 0) :
    ∃ W V : Mat ℝ, (asM (max M N) N W)ᵀ * asM (max M N) N W = 1 ∧ (asM N N V)ᵀ * asM N N V = 1 ∧
      (wantU = true → ∀ a p, a < M → p < N → st.U a p = W a p) ∧ (wantV = true → asM N N st.V = asM N N V) ∧
      asM (max M N) N (fun a c => if a < M then A a c else 0) = asM (max M N) N W * diagonal (asV N st.d) * (asM N N V)ᵀ := by
  obtain ⟨b, st', W, V, hb, h1, h2, h3, h4, h5, h6, h7, h8, h9⟩ := svd_core (M := M) (N := N) (wU := wantU) (wV := wantV) hN exactTest (fun a => 0 * a) exactTest_ok.zero exactTest_ok.small fuel hf A d0 e0 V0
  rw [hs] at h1
  obtain rfl := Option.some.inj h1
  refine ⟨W, V, ?_, h3, h4, ?_, ?_⟩
  · ext p q
    have := congrFun (congrFun h2 ⟨p, by omega⟩) ⟨q, by omega⟩
    rw [Matrix.mul_apply, Matrix.one_apply] at this ⊢
    simp only [Matrix.transpose_apply, asM_apply, Fin.mk.injEq] at this ⊢
    rw [this]
    simp only [Fin.ext_iff]
  · intro hw
    rw [asM_eq_iff]; intro i j hi _; rw [h5 hw i hi]
  · ext a c
    have := h9 a c a.2 c.2
    rw [zero_mul, mul_zero] at this
    have := sub_eq_zero.mp (abs_eq_zero.mp (le_antisymm this (abs_nonneg _)))
    show (if (a : Nat) < M then A a c else 0) = _
    rw [this, form_upper N st.nError h6 st.d st.e W V (max M N) a c, hc, upper_zero]

theorem pad_gram : (asM (max M N) N (fun a c => if a < M then A a c else 0))ᵀ * asM (max M N) N (fun a c => if a < M then A a c else 0) =
    (asM M N A)ᵀ * asM M N A := by
  ext p q
  rw [Matrix.mul_apply, Matrix.mul_apply]
  simp only [Matrix.transpose_apply, asM_apply]
  rw [Fin.sum_univ_eq_sum_range (fun a => (if a < M then A a p else 0) * (if a < M then A a q else 0)), Fin.sum_univ_eq_sum_range (fun a => A a p * A a q)]
  symm
  rw [Finset.sum_congr rfl (fun a ha => by rw [if_pos (mem_range.mp ha), if_pos (mem_range.mp ha)] :
    ∀ a ∈ range M, A a p * A a q = (if a < M then A a p else 0) * (if a < M then A a q else 0))]
  refine Finset.sum_subset (fun x hx => mem_range.mpr (by have := mem_range.mp hx; omega)) (fun a _ ha => ?_)
  rw [if_neg (fun h => ha (mem_range.mpr h)), zero_mul]

/-- **C32** in exact arithmetic the squares of the reported values are the eigenvalues of `AᵀA`, with multiplicity; whichever of `U` and `V`
are wanted. -/
theorem c32_singular_values (hN : 1 ≤ N) (hf : 31 ≤ fuel) (st : St)
    (hs : svd M N wantU wantV exactTest fuel A d0 e0 V0 = some st) (hc : st.nError = 0) :
    ((asM M N A)ᵀ * asM M N A).charpoly = ∏ i : Fin N, (Polynomial.X - Polynomial.C (st.d i ^ 2)) := by
  obtain ⟨W, V, h1, h2, _, _, h5⟩ := exact_core M N wantU wantV fuel A d0 e0 V0 hN hf st hs hc
  have hV : asM N N V * (asM N N V)ᵀ = 1 := mul_eq_one_comm.mp h2
  have hg : (asM M N A)ᵀ * asM M N A = asM N N V * diagonal (fun i : Fin N => st.d i ^ 2) * (asM N N V)ᵀ := by
    rw [← pad_gram, h5]
    simp only [Matrix.transpose_mul, Matrix.transpose_transpose, Matrix.diagonal_transpose, Matrix.mul_assoc]
    congr 1
    rw [← Matrix.mul_assoc (asM (max M N) N W)ᵀ, h1, Matrix.one_mul, ← Matrix.mul_assoc (diagonal _) (diagonal _), Matrix.diagonal_mul_diagonal]
    simp only [asV_apply, pow_two]
  rw [hg]
  apply Polynomial.funext
  intro x
  rw [Matrix.eval_charpoly, Polynomial.eval_prod]
  have : Matrix.scalar (Fin N) x - asM N N V * diagonal (fun i : Fin N => st.d i ^ 2) * (asM N N V)ᵀ =
      asM N N V * diagonal (fun i : Fin N => x - st.d i ^ 2) * (asM N N V)ᵀ := by
    rw [show (diagonal (fun i : Fin N => x - st.d i ^ 2)) = Matrix.scalar (Fin N) x - diagonal (fun i : Fin N => st.d i ^ 2) by
      rw [Matrix.scalar_apply, Matrix.diagonal_sub]]
    rw [Matrix.mul_sub, Matrix.sub_mul]
    congr 1
    rw [Matrix.scalar_apply, ← Matrix.smul_one_eq_diagonal, Matrix.mul_smul, Matrix.smul_mul, Matrix.mul_one, hV]
  rw [this, Matrix.det_mul, Matrix.det_mul, mul_comm (asM N N V).det, mul_assoc, ← Matrix.det_mul, hV, Matrix.det_one, mul_one, Matrix.det_diagonal]
  simp

/-- **C32** `WANT_U` and `WANT_V` do not change any of the other results. -/
theorem c32_flags (wantU' wantV' : Bool) (st st' : St) (hs : svd M N wantU wantV negl fuel A d0 e0 V0 = some st)
    (hs' : svd M N wantU' wantV' negl fuel A d0 e0 V0 = some st') :
    st.d = st'.d ∧ st.nError = st'.nError ∧ (wantU = wantU' → st.U = st'.U) ∧ (wantV = wantV' → st.V = st'.V) := by
  have := sim_svd (M := M) (N := N) (wU := wantU) (wV := wantV) (wU' := wantU') (wV' := wantV') negl fuel A d0 e0 V0
  rw [hs, hs'] at this
  cases this with
  | some h => exact ⟨h.d, h.nError, h.U, h.V⟩

/-- **C32** `reorder()` permutes the columns of `U` and `V` and the singular values by the same permutation, after which the values are in
descending order (equal values stay in their order). -/
theorem c32_reorder (st : St) : ∃ σ : Equiv.Perm (Fin N),
    (∀ i : Fin N, (reorder M N wantU wantV st).d i = st.d (σ i)) ∧
    (∀ (a : Fin M) (i : Fin N), (reorder M N wantU wantV st).U a i = if wantU = true then st.U a (σ i) else st.U a i) ∧
    (∀ a i : Fin N, (reorder M N wantU wantV st).V a i = if wantV = true then st.V a (σ i) else st.V a i) ∧
    (∀ i j : Fin N, i ≤ j → (reorder M N wantU wantV st).d j ≤ (reorder M N wantU wantV st).d i) ∧
    (∀ i j : Fin N, i < j → st.d (σ i) = st.d (σ j) → σ i < σ j) := by
  obtain ⟨σ, h1, h2, h3⟩ := sorted_spec N st.d
  have hd : ∀ i : Fin N, (reorder M N wantU wantV st).d i = st.d (σ i) := by
    intro i
    show forN N (fun i d => Vec.set d i (-((sorted N st.d).getD i (0, 0)).1)) st.d i = _
    rw [vecFill N (fun i => -((sorted N st.d).getD i (0, 0)).1), if_pos i.2, h1, neg_neg]
  refine ⟨σ, hd, ?_, ?_, fun i j hij => ?_, h3⟩
  · intro a i
    show (if wantU then forN N (fun i U => forN M (fun r U => Mat.set U r i (st.U r ((sorted N st.d).getD i (0, 0)).2)) U) st.U else st.U) a i = _
    cases wantU
    · rfl
    · rw [if_pos rfl, if_pos rfl, matFill M N (fun r i => st.U r ((sorted N st.d).getD i (0, 0)).2), if_pos ⟨i.2, a.2⟩, h1]
  · intro a i
    show (if wantV then forN N (fun i U => forN N (fun r U => Mat.set U r i (st.V r ((sorted N st.d).getD i (0, 0)).2)) U) st.V else st.V) a i = _
    cases wantV
    · rfl
    · rw [if_pos rfl, if_pos rfl, matFill N N (fun r i => st.V r ((sorted N st.d).getD i (0, 0)).2), if_pos ⟨i.2, a.2⟩, h1]
  · rw [hd, hd]; exact h2 i j hij

/-- **C32** `reorder()` does not change `U diag(d) Vᵀ`, nor the orthogonality of `U` and `V`. -/
theorem c32_reorder_product (st : St) :
    let r := reorder M N true true st
    asM M N r.U * diagonal (asV N r.d) * (asM N N r.V)ᵀ = asM M N st.U * diagonal (asV N st.d) * (asM N N st.V)ᵀ ∧
    ((asM M N st.U)ᵀ * asM M N st.U = 1 → (asM M N r.U)ᵀ * asM M N r.U = 1) ∧
    ((asM N N st.V)ᵀ * asM N N st.V = 1 → (asM N N r.V)ᵀ * asM N N r.V = 1) := by
  intro r
  obtain ⟨σ, h1, h2, h3, _⟩ := c32_reorder M N true true st
  have eU : asM M N r.U = (asM M N st.U).submatrix id σ := by ext a i; exact h2 a i
  have eV : asM N N r.V = (asM N N st.V).submatrix id σ := by ext a i; exact h3 a i
  have ed : asV N r.d = asV N st.d ∘ σ := by funext i; exact h1 i
  refine ⟨?_, fun h => ?_, fun h => ?_⟩
  · rw [eU, eV, ed]
    ext a c
    rw [Matrix.mul_apply, Matrix.mul_apply]
    simp only [Matrix.mul_diagonal, Matrix.submatrix_apply, Matrix.transpose_apply, Function.comp, id]
    exact Equiv.sum_comp σ (fun p => asM M N st.U a p * asV N st.d p * asM N N st.V c p)
  · rw [eU, Matrix.transpose_submatrix]
    have := Matrix.submatrix_mul_equiv (asM M N st.U)ᵀ (asM M N st.U) σ (Equiv.refl _) σ
    rw [h, Matrix.submatrix_one_equiv σ] at this
    exact this
  · rw [eV, Matrix.transpose_submatrix]
    have := Matrix.submatrix_mul_equiv (asM N N st.V)ᵀ (asM N N st.V) σ (Equiv.refl _) σ
    rw [h, Matrix.submatrix_one_equiv σ] at this
    exact this

/-- **C32** the largest value, the smallest value and the (first) index of the smallest value. -/
theorem c32_extremes (hN : 1 ≤ N) (d : Vec ℝ) :
    ((∃ i, i < N ∧ largest N d = d i) ∧ ∀ i, i < N → d i ≤ largest N d) ∧
    ((∃ i, i < N ∧ smallest N d = d i) ∧ ∀ i, i < N → smallest N d ≤ d i) ∧
    (smallestIndex N d < N ∧ d (smallestIndex N d) = smallest N d ∧ ∀ i, i < smallestIndex N d → smallest N d < d i) := by
  have hl := forRange_inv (fun n (m : ℝ) => (∃ i, i < n ∧ m = d i) ∧ ∀ i, i < n → d i ≤ m) 1 N hN (fun i m => max m (d i)) (d 0)
    ⟨⟨0, by omega, rfl⟩, fun i hi => by rw [show i = 0 by omega]⟩ (by
      rintro n m h1 h2 ⟨⟨i, hi, hm⟩, h⟩
      refine ⟨?_, fun j hj => ?_⟩
      · rcases max_choice m (d n) with e | e
        · exact ⟨i, by omega, by rw [e, hm]⟩
        · exact ⟨n, by omega, e⟩
      · by_cases e : j = n
        · rw [e]; exact le_max_right _ _
        · exact (h j (by omega)).trans (le_max_left _ _))
  have hsm := forRange_inv (fun n (m : ℝ) => (∃ i, i < n ∧ m = d i) ∧ ∀ i, i < n → m ≤ d i) 1 N hN (fun i m => min m (d i)) (d 0)
    ⟨⟨0, by omega, rfl⟩, fun i hi => by rw [show i = 0 by omega]⟩ (by
      rintro n m h1 h2 ⟨⟨i, hi, hm⟩, h⟩
      refine ⟨?_, fun j hj => ?_⟩
      · rcases min_choice m (d n) with e | e
        · exact ⟨i, by omega, by rw [e, hm]⟩
        · exact ⟨n, by omega, e⟩
      · by_cases e : j = n
        · rw [e]; exact min_le_right _ _
        · exact (min_le_left _ _).trans (h j (by omega)))
  have hix := forRange_inv (fun n (st : Nat × ℝ) => st.1 < n ∧ st.2 = d st.1 ∧ (∀ i, i < n → st.2 ≤ d i) ∧ ∀ i, i < st.1 → st.2 < d i) 1 N hN
    (fun i (st : Nat × ℝ) => if d i < st.2 then (i, d i) else st) (0, d 0)
    ⟨by simp, rfl, fun i hi => by rw [show i = 0 by omega], fun i hi => by simp at hi⟩ (by
      rintro n st h1 h2 ⟨a1, a2, a3, a4⟩
      by_cases h : d n < st.2
      · simp only [if_pos h]
        refine ⟨by omega, trivial, fun i hi => ?_, fun i hi => lt_of_lt_of_le h (a3 i hi)⟩
        by_cases e : i = n
        · rw [e]
        · exact (h.le).trans (a3 i (by omega))
      · simp only [if_neg h]
        refine ⟨by omega, a2, fun i hi => ?_, a4⟩
        by_cases e : i = n
        · rw [e]; exact not_lt.mp h
        · exact a3 i (by omega))
  refine ⟨hl, hsm, ?_⟩
  obtain ⟨b1, b2, b3, b4⟩ := hix
  obtain ⟨⟨i, hi, hi'⟩, h'⟩ := hsm
  have e : (forRange 1 N (fun i (st : Nat × ℝ) => if d i < st.2 then (i, d i) else st) (0, d 0)).2 = smallest N d := by
    apply le_antisymm
    · rw [smallest, hi']; exact b3 i hi
    · rw [b2]; exact h' _ b1
  exact ⟨b1, by rw [← e]; exact b2.symm, fun i hi => by rw [← e]; exact b4 i hi⟩

/-- **C32** `get_inv_diag`: reciprocal of the values that exceed largest/condition, zero for the others; no division by zero. -/
theorem c32_inv_diag (hN : 1 ≤ N) (d : Vec ℝ) (h0 : ∀ i, i < N → 0 ≤ d i) (condition : ℝ) (u : Vec ℝ) :
    ∃ inv, getInvDiag N d condition u = some inv ∧ ∀ i, i < N → inv i = if d i * condition > largest N d then (d i)⁻¹ else 0 := by
  obtain ⟨⟨⟨m, hm, hm'⟩, hmax⟩, _⟩ := c32_extremes N hN d
  refine forNM_total (fun k inv => ∀ i, i < k → inv i = if d i * condition > largest N d then (d i)⁻¹ else 0) N _ u
    (fun i hi => absurd hi (Nat.not_lt_zero i)) ?_
  intro i t hi ht
  by_cases hc : d i * condition > largest N d
  · have hz : d i ≠ 0 := by
      intro hz; rw [hz, zero_mul, hm'] at hc; exact absurd hc (not_lt.mpr (h0 m hm))
    refine ⟨Vec.set t i (1 / d i), by simp only [if_pos hc, if_neg hz], ?_⟩
    intro j hj
    by_cases e : j = i
    · subst e; rw [Vec.set_self, if_pos hc, one_div]
    · rw [Vec.set_ne _ _ _ _ e]; exact ht j (by omega)
  · refine ⟨Vec.set t i 0, by simp only [if_neg hc], ?_⟩
    intro j hj
    by_cases e : j = i
    · subst e; rw [Vec.set_self, if_neg hc]
    · rw [Vec.set_ne _ _ _ _ e]; exact ht j (by omega)

/-- the diagonal of the pseudo-inverse chosen by the threshold -/
def invS (d : Vec ℝ) (condition : ℝ) : Fin N → ℝ := fun i => if d i * condition > largest N d then (d i)⁻¹ else 0

/-- **C32** `get_pinv`, `backsub(Matrix)` and `backsub(Vector)` are one and the same pseudo-inverse. -/
theorem c32_backsub_eq_pinv (hN : 1 ≤ N) (st : St) (h0 : ∀ i, i < N → 0 ≤ st.d i) (condition : ℝ) (c2 : Nat) (B : Mat ℝ) (b : Vec ℝ)
    (j j' j'' : SVD.Junk ℝ) :
    ∃ P X x, getPinv M N st condition j = some P ∧ backsubM M N st condition c2 B j' = some X ∧ backsubV M N st condition b j'' = some x ∧
      asM N M P = asM N N st.V * diagonal (invS N st.d condition) * (asM M N st.U)ᵀ ∧
      asM N c2 X = asM N M P * asM M c2 B ∧ asV N x = (asM N M P).mulVec (asV M b) := by
  obtain ⟨inv, h1, h2⟩ := c32_inv_diag N hN st.d h0 condition j.v1
  obtain ⟨inv', h1', h2'⟩ := c32_inv_diag N hN st.d h0 condition j'.v1
  obtain ⟨inv'', h1'', h2''⟩ := c32_inv_diag N hN st.d h0 condition j''.v1
  have e : asV N inv = invS N st.d condition := by funext i; exact h2 i i.2
  have e' : asV N inv' = invS N st.d condition := by funext i; exact h2' i i.2
  have e'' : asV N inv'' = invS N st.d condition := by funext i; exact h2'' i i.2
  have hP : asM N M (Ops.mulMM N N M (Ops.diagmultMV N N st.V inv j.m1) (Mat.T st.U) j.m2) =
      asM N N st.V * diagonal (invS N st.d condition) * (asM M N st.U)ᵀ := by
    rw [Ops.c09_mul_matrix, SVD.asM_diagmultMV, WLS.asM_T, e]
  refine ⟨_, _, _, by rw [getPinv, h1]; rfl, by rw [backsubM, h1']; rfl, by rw [backsubV, h1'']; rfl, hP, ?_, ?_⟩
  · rw [hP, Ops.c09_mul_matrix, SVD.asM_diagmultVM, Ops.c09_mul_matrix, WLS.asM_T, e']
    simp only [Matrix.mul_assoc]
  · rw [hP, (Ops.c09_mul_vector _ _ _ _ (fun _ => 0) _ (fun _ => 0)).1, SVD.asV_diagmultVV,
      (Ops.c09_mul_vector _ _ _ _ (fun _ => 0) _ (fun _ => 0)).1, WLS.asM_T, e'']
    simp only [Matrix.mulVec_mulVec, Matrix.mul_assoc]

/-- only the columns of `U` that belong to nonzero singular values need to be orthonormal -/
theorem gram_mul_diag (hN : 1 ≤ N) (hf : 31 ≤ fuel) (st : St)
    (hs : svd M N true wantV exactTest fuel A d0 e0 V0 = some st) (hc : st.nError = 0) :
    (asM M N st.U)ᵀ * asM M N st.U * diagonal (asV N st.d) = diagonal (asV N st.d) := by
  obtain ⟨W, V, h1, h2, h3, h4, h5⟩ := exact_core M N true wantV fuel A d0 e0 V0 hN hf st hs hc
  have hW : ∀ a : Fin (max M N), M ≤ (a : Nat) → ∀ p : Fin N, W a p * st.d p = 0 := by
    intro a ha p
    have h6 : asM (max M N) N (fun a c => if a < M then A a c else 0) * asM N N V = asM (max M N) N W * diagonal (asV N st.d) := by
      rw [h5, Matrix.mul_assoc, h2, Matrix.mul_one]
    have h7 := congrFun (congrFun h6 a) p
    rw [Matrix.mul_diagonal, Matrix.mul_apply] at h7
    simp only [asM_apply, asV_apply] at h7
    rw [← h7]
    exact Finset.sum_eq_zero (fun c _ => by rw [if_neg (by omega), zero_mul])
  ext p q
  rw [Matrix.mul_diagonal, Matrix.mul_apply]
  simp only [Matrix.transpose_apply, asM_apply, asV_apply]
  have h6 := congrFun (congrFun h1 p) q
  rw [Matrix.mul_apply] at h6
  simp only [Matrix.transpose_apply, asM_apply] at h6
  rw [Fin.sum_univ_eq_sum_range (fun a => W a p * W a q)] at h6
  have h8 : ∑ a ∈ range (max M N), W a p * W a q * st.d q = ∑ a ∈ range M, W a p * W a q * st.d q := by
    symm
    refine Finset.sum_subset (fun x hx => mem_range.mpr (by have := mem_range.mp hx; omega)) (fun a ha ha' => ?_)
    rw [mul_assoc, hW ⟨a, mem_range.mp ha⟩ (by rw [mem_range] at ha'; exact not_lt.mp ha') q, mul_zero]
  rw [Finset.sum_mul, Fin.sum_univ_eq_sum_range (fun a => st.U a p * st.U a q * st.d q)]
  rw [Finset.sum_congr rfl (fun a ha => by rw [h3 rfl a p (mem_range.mp ha) p.2, h3 rfl a q (mem_range.mp ha) q.2] :
    ∀ a ∈ range M, st.U a p * st.U a q * st.d q = W a p * W a q * st.d q), ← h8, ← Finset.sum_mul, h6, Matrix.one_apply, Matrix.diagonal_apply]
  by_cases h : p = q
  · rw [if_pos h, if_pos h, one_mul, h]; rfl
  · rw [if_neg h, if_neg h, zero_mul]

/-- pseudo-inverse of a truncated decomposition -/
theorem mp_of_parts {U : Matrix (Fin M) (Fin N) ℝ} {V : Matrix (Fin N) (Fin N) ℝ} (hV : Vᵀ * V = 1) (s t : Fin N → ℝ)
    (hU : Uᵀ * U * diagonal s = diagonal s) (h1 : ∀ i, s i * t i * s i = s i) (h2 : ∀ i, t i * s i * t i = t i) :
    SVD.MoorePenrose (U * diagonal s * Vᵀ) (V * diagonal t * Uᵀ) := by
  have e1 : U * diagonal s * Vᵀ * (V * diagonal t * Uᵀ) = U * diagonal (fun i => s i * t i) * Uᵀ := by
    rw [← diagonal_mul_diagonal]
    simp only [Matrix.mul_assoc]
    rw [← Matrix.mul_assoc Vᵀ, hV, Matrix.one_mul]
  have e2 : V * diagonal t * Uᵀ * (U * diagonal s * Vᵀ) = V * diagonal (fun i => t i * s i) * Vᵀ := by
    have : V * diagonal t * Uᵀ * (U * diagonal s * Vᵀ) = V * diagonal t * (Uᵀ * U * diagonal s) * Vᵀ := by simp only [Matrix.mul_assoc]
    rw [this, hU, ← diagonal_mul_diagonal, Matrix.mul_assoc V]
  refine ⟨?_, ?_, ?_, ?_⟩
  · rw [e1]
    have : U * diagonal (fun i => s i * t i) * Uᵀ * (U * diagonal s * Vᵀ) = U * diagonal (fun i => s i * t i) * (Uᵀ * U * diagonal s) * Vᵀ := by
      simp only [Matrix.mul_assoc]
    rw [this, hU, Matrix.mul_assoc U, diagonal_mul_diagonal]
    simp only [h1]
  · rw [e2]
    have : V * diagonal (fun i => t i * s i) * Vᵀ * (V * diagonal t * Uᵀ) = V * (diagonal (fun i => t i * s i) * diagonal t) * Uᵀ := by
      simp only [Matrix.mul_assoc]
      rw [← Matrix.mul_assoc Vᵀ, hV, Matrix.one_mul]
    rw [this, diagonal_mul_diagonal]
    simp only [h2]
  · rw [e1, transpose_mul, transpose_mul, transpose_transpose, diagonal_transpose, Matrix.mul_assoc]
  · rw [e2, transpose_mul, transpose_mul, transpose_transpose, diagonal_transpose, Matrix.mul_assoc]

/-- **C32** in exact arithmetic, for every condition number: `get_pinv()` is the Moore-Penrose inverse of the matrix whose small singular
values have been set to zero; of `A` itself if no nonzero value is dropped.  For all shapes, also `M < N`. -/
theorem c32_pinv (hN : 1 ≤ N) (hf : 31 ≤ fuel) (st : St) (hs : svd M N true true exactTest fuel A d0 e0 V0 = some st) (hc : st.nError = 0)
    (condition : ℝ) (j : SVD.Junk ℝ) :
    ∃ P, getPinv M N st condition j = some P ∧
      SVD.MoorePenrose (asM M N st.U * diagonal (fun i : Fin N => if st.d i * condition > largest N st.d then st.d i else 0) * (asM N N st.V)ᵀ)
        (asM N M P) ∧
      ((∀ i, i < N → st.d i ≠ 0 → st.d i * condition > largest N st.d) → SVD.MoorePenrose (asM M N A) (asM N M P)) := by
  have h0 := c32_nonneg M N true true exactTest 0 fuel A d0 e0 V0 hN exactTest_ok hf st hs hc
  obtain ⟨P, _, _, h1, _, _, h2, _, _⟩ := c32_backsub_eq_pinv M N hN st (fun i hi => h0 i hi) condition 0 (fun _ _ => 0) (fun _ => 0) j j j
  refine ⟨P, h1, ?_⟩
  have hV := (c32_orthogonal M N true true exactTest 0 fuel A d0 e0 V0 hN exactTest_ok hf st hs).1 rfl
  have hg := gram_mul_diag M N true fuel A d0 e0 V0 hN hf st hs hc
  have key : SVD.MoorePenrose (asM M N st.U * diagonal (fun i : Fin N => if st.d i * condition > largest N st.d then st.d i else 0) * (asM N N st.V)ᵀ) (asM N M P) := by
    rw [h2]
    refine mp_of_parts M N hV _ _ ?_ ?_ ?_
    · ext p q
      have h3 := congrFun (congrFun hg p) q
      rw [Matrix.mul_diagonal, Matrix.diagonal_apply] at h3
      rw [Matrix.mul_diagonal, Matrix.diagonal_apply]
      simp only [asV_apply] at h3
      by_cases h : st.d q * condition > largest N st.d
      · rw [if_pos h, h3]
        by_cases hpq : p = q
        · rw [if_pos hpq, if_pos hpq, hpq, if_pos h]
        · rw [if_neg hpq, if_neg hpq]
      · rw [if_neg h, mul_zero]
        by_cases hpq : p = q
        · rw [if_pos hpq, hpq, if_neg h]
        · rw [if_neg hpq]
    · intro i
      simp only [invS]
      by_cases h : st.d i * condition > largest N st.d
      · rw [if_pos h, if_pos h]; exact mul_inv_mul_cancel _
      · rw [if_neg h]; ring
    · intro i
      simp only [invS]
      by_cases h : st.d i * condition > largest N st.d
      · rw [if_pos h, if_pos h]; exact inv_mul_mul_self' _
      · rw [if_neg h, if_neg h]; ring
  refine ⟨key, fun hk => ?_⟩
  rw [c32_exact M N fuel A d0 e0 V0 hN hf st hs hc]
  have : (fun i : Fin N => if st.d i * condition > largest N st.d then st.d i else 0) = asV N st.d := by
    funext i
    by_cases h : st.d i = 0
    · simp only [h, ite_self, asV_apply]
    · rw [if_pos (hk i i.2 h)]; rfl
  rwa [this] at key
where inv_mul_mul_self' (x : ℝ) : x⁻¹ * x * x⁻¹ = x⁻¹ := by
        by_cases h : x = 0
        · rw [h]; simp
        · rw [inv_mul_cancel₀ h, one_mul]

/-- **C32** `backsub(b)` is the shortest least squares solution of `A x = b`. -/
theorem c32_backsub_least_squares (hN : 1 ≤ N) (hf : 31 ≤ fuel) (st : St) (hs : svd M N true true exactTest fuel A d0 e0 V0 = some st)
    (hc : st.nError = 0) (condition : ℝ) (hk : ∀ i, i < N → st.d i ≠ 0 → st.d i * condition > largest N st.d) (b : Vec ℝ) (j : SVD.Junk ℝ) :
    ∃ x, backsubV M N st condition b j = some x ∧
      (∀ y : Fin N → ℝ, ((asM M N A).mulVec (asV N x) - asV M b) ⬝ᵥ ((asM M N A).mulVec (asV N x) - asV M b) ≤
        ((asM M N A).mulVec y - asV M b) ⬝ᵥ ((asM M N A).mulVec y - asV M b)) ∧
      (∀ y : Fin N → ℝ, (asM M N A).mulVec y = (asM M N A).mulVec (asV N x) → asV N x ⬝ᵥ asV N x ≤ y ⬝ᵥ y) := by
  have h0 := c32_nonneg M N true true exactTest 0 fuel A d0 e0 V0 hN exactTest_ok hf st hs hc
  obtain ⟨P, hP, _, hmp⟩ := c32_pinv M N fuel A d0 e0 V0 hN hf st hs hc condition j
  obtain ⟨P', X, x, h1, _, h3, _, _, h5⟩ := c32_backsub_eq_pinv M N hN st (fun i hi => h0 i hi) condition 0 (fun _ _ => 0) b j j j
  rw [hP] at h1
  obtain rfl := Option.some.inj h1
  refine ⟨x, h3, ?_, ?_⟩
  · intro y; rw [h5]; exact SVD.moorePenrose_lsq (hmp hk) _ y
  · intro y hy; rw [h5] at hy ⊢; exact SVD.moorePenrose_minnorm (hmp hk) _ y hy

/-- **C32** with one or two columns (and any number of rows) the iteration converges in exact arithmetic: the shift is exact for a
2x2 block, so at most two sweeps are made.  With three or more columns exact arithmetic need not reach an exact zero in 30 sweeps; `c32_iteration_limit` covers that case. -/
theorem c32_converges_two_columns (hN : 1 ≤ N) (hN2 : N ≤ 2) (hf : 31 ≤ fuel) :
    ∃ st, svd M N wantU wantV exactTest fuel A d0 e0 V0 = some st ∧ st.nError = 0 := by
  by_cases h1 : N = 1
  · obtain ⟨st, h, h2⟩ := c32_returns M N wantU wantV exactTest 0 fuel A d0 e0 V0 hN exactTest_ok hf
    exact ⟨st, h, by omega⟩
  · obtain rfl : N = 2 := by omega
    obtain ⟨b, V, U, s1, s2, s3, _, _, _, s8, _⟩ := start_spec M 2 hN A d0 e0 V0
    unfold svd
    rw [s1]; simp only [Option.bind_some]
    rw [s2]; simp only [Option.bind_some]
    rw [s3]; simp only [Option.bind_some]
    exact diag_two (exactTest b.anorm) (fun x => by simp [exactTest]) fuel (by omega) _ s8 rfl

end

/-- the hypotheses of the theorems above hold together: a 3x2 matrix whose decomposition converges and reproduces it -/
example : ∃ st, svd 3 2 true true exactTest 31 (fun i j => (i : ℝ) + 2 * j + 1) (fun _ => 7) (fun _ => 7) (fun _ _ => 7) = some st ∧ st.nError = 0 ∧
    asM 3 2 (fun i j => (i : ℝ) + 2 * j + 1) = asM 3 2 st.U * diagonal (asV 2 st.d) * (asM 2 2 st.V)ᵀ ∧
    (asM 3 2 st.U)ᵀ * asM 3 2 st.U = 1 ∧ (asM 2 2 st.V)ᵀ * asM 2 2 st.V = 1 := by
  obtain ⟨st, h1, h2⟩ := c32_converges_two_columns 3 2 true true 31 (fun i j => (i : ℝ) + 2 * j + 1) (fun _ => 7) (fun _ => 7) (fun _ _ => 7)
    (by norm_num) le_rfl le_rfl
  have h3 := c32_orthogonal 3 2 true true exactTest 0 31 _ _ _ _ (by norm_num) exactTest_ok le_rfl st h1
  exact ⟨st, h1, h2, c32_exact 3 2 31 _ _ _ _ (by norm_num) le_rfl st h1 h2, h3.2.1 rfl (by norm_num), h3.1 rfl⟩

/-- a threshold test like that of floating point: all hypotheses of `c32_decomposition` hold for a wide matrix -/
example (V0 : Mat ℝ) : ∃ st, svd 2 5 true true (fun anorm x => x ≤ 2⁻¹ ^ 53 * anorm) 31 (fun i j => (i : ℝ) * 3 + j * j) (fun _ => 0) (fun _ => 0) V0 = some st ∧
    st.nError < 5 :=
  c32_returns 2 5 true true _ _ 31 _ _ _ V0 (by norm_num) (thresholdTest_ok (2⁻¹ ^ 53) (by positivity)) le_rfl

/-- `get_inv_diag` on a concrete vector: 1e-3 is dropped with condition 100, kept with condition 1e4 -/
example : ∃ inv inv', getInvDiag 2 (fun i => if i = 0 then 1 else 1 / 1000) 100 (fun _ => 5) = some inv ∧ inv 0 = 1 ∧ inv 1 = 0 ∧
    getInvDiag 2 (fun i => if i = 0 then 1 else 1 / 1000) 10000 (fun _ => 5) = some inv' ∧ inv' 1 = 1000 := by
  have hl : largest 2 (fun i => if i = 0 then (1 : ℝ) else 1 / 1000) = 1 := by
    simp [largest, forRange, forN]; norm_num
  have h0 : ∀ i, i < 2 → (0:ℝ) ≤ (fun i : Nat => if i = 0 then (1 : ℝ) else 1 / 1000) i := fun i _ => by
    beta_reduce; split_ifs <;> norm_num
  obtain ⟨a, a1, a2⟩ := c32_inv_diag 2 (by norm_num) _ h0 100 (fun _ => 5)
  obtain ⟨b, b1, b2⟩ := c32_inv_diag 2 (by norm_num) _ h0 10000 (fun _ => 5)
  refine ⟨a, b, a1, ?_, ?_, b1, ?_⟩
  · rw [a2 0 (by norm_num), hl]; norm_num
  · rw [a2 1 (by norm_num), hl]; norm_num
  · rw [b2 1 (by norm_num), hl]; norm_num
end
end TooN.GRSVD
