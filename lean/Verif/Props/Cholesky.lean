import Verif.Proof.Cholesky
import Mathlib.Analysis.Real.Sqrt
import Mathlib.Data.Rat.Defs
import Mathlib.Algebra.Order.Ring.Rat
import Mathlib.Tactic.NormNum
import Mathlib.Tactic.Linarith
/-!
# C20, C21, C22: Cholesky (`L D Lᵀ`)

`compute n A = (my_cholesky, my_rank)`; `lowerSym A` is the symmetric matrix with the lower half of `A`
(only the lower half is documented to be considered); `SymPosDef` is in `Spec/SymPosDef.lean`.
`none` = division by zero.
-/
namespace TooN.Chol
open Finset
section field
variable {K : Type _} [Field K] [DecidableEq K]

/-- **C20** Whenever the factorisation reports full rank, `get_unscaled_L()` is unit lower triangular,
`get_D()` is diagonal with nonzero entries and `L * D * Lᵀ` is the (symmetric) input. -/
theorem c20_ldl_of_full_rank (n : Nat) (A u u' : Mat K) (hr : (compute n A).2 = n) :
    let m := (compute n A).1
    let L := asM n n (getUnscaledL n m u)
    let D := asM n n (getD n m u')
    (∀ i, L i i = 1) ∧ (∀ i j, i < j → L i j = 0) ∧
    (∀ i j, i ≠ j → D i j = 0) ∧ (∀ i, D i i ≠ 0) ∧
    L * D * L.transpose = asM n n (lowerSym A) := by
  intro m L D
  have hL : L = Lmat n m := asM_getUnscaledL n m u
  have hD : D = Dmat n m := asM_getD n m u'
  rcases compute_spec n A with ⟨-, h2, h3⟩ | ⟨h1, -⟩
  · refine ⟨?_, ?_, ?_, ?_, ?_⟩
    · intro i; rw [hL]; simp [Lmat]
    · intro i j hij
      have : (i : Nat) < j := hij
      rw [hL]
      simp only [Lmat, asM_apply]
      rw [if_neg (by omega), if_neg (by omega)]
    · intro i j hij; rw [hD, Dmat, Matrix.diagonal_apply_ne _ hij]
    · intro i; rw [hD, Dmat, Matrix.diagonal_apply_eq]; exact h2 i i.2
    · rw [hL, hD, fact_matrix h3]
  · omega

/-- **C20** the strictly upper half of the input is never used: inputs with the same lower half give the
same rank and the same `get_unscaled_L()`, `get_D()` and `get_L()`. -/
theorem c20_upper_half_ignored (sqrt : K → K) (n : Nat) (A A' u : Mat K)
    (h : ∀ r c, r < n → c ≤ r → A r c = A' r c) :
    (compute n A).2 = (compute n A').2 ∧
    asM n n (getUnscaledL n (compute n A).1 u) = asM n n (getUnscaledL n (compute n A').1 u) ∧
    asM n n (getD n (compute n A).1 u) = asM n n (getD n (compute n A').1 u) ∧
    asM n n (getL sqrt n (compute n A).1 u) = asM n n (getL sqrt n (compute n A').1 u) := by
  have key : (compute n A).2 = (compute n A').2 ∧
      ∀ r c, r < n → c < n → c ≤ r → (compute n A).1 r c = (compute n A').1 r c := by
    have := compute_agree n A A' h
    unfold compute
    generalize forN n (colBody n) (.run A 1) = s at this ⊢
    generalize forN n (colBody n) (.run A' 1) = s' at this ⊢
    match s, s', this with
    | .ret m j, .ret m' j', hs => exact hs
    | .run m i, .run m' i', hs => exact ⟨rfl, fun r c hr hc hrc => hs r c hr hc (Or.inl hrc)⟩
  obtain ⟨h1, h2⟩ := key
  refine ⟨h1, ?_, ?_, ?_⟩
  · rw [asM_eq_iff]
    intro i j hi hj
    rw [getUnscaledL_apply _ _ _ _ _ hi hj, getUnscaledL_apply _ _ _ _ _ hi hj]
    split
    · next hlt => exact h2 i j hi hj (by omega)
    · rfl
  · rw [asM_eq_iff]
    intro i j hi hj
    rw [getD_apply _ _ _ _ _ hi hj, getD_apply _ _ _ _ _ hi hj, h2 i i hi hi (le_refl _)]
  · rw [asM_eq_iff]
    intro i j hi hj
    rw [getL_apply _ _ _ _ _ _ hi hj, getL_apply _ _ _ _ _ _ hi hj, h2 j j hj hj (le_refl _)]
    split
    · next hlt => rw [h2 i j hi hj (by omega)]
    · rfl

/-- **C21** after a full-rank factorisation `backsub(v)` succeeds and returns the `x` with `A x = v`
(the unique one). -/
theorem c21_backsub (n : Nat) (A : Mat K) (v u w : Vec K) (hr : (compute n A).2 = n) :
    ∃ x, backsub n (compute n A).1 v u w = some x ∧
      (asM n n (lowerSym A)).mulVec (asV n x) = asV n v ∧
      ∀ z : Fin n → K, (asM n n (lowerSym A)).mulVec z = asV n v → z = asV n x := by
  rcases compute_spec n A with ⟨-, h2, h3⟩ | ⟨h1, -⟩
  · obtain ⟨x, e1, e2⟩ := backsub_spec n (compute n A).1 v u w h2
    rw [← fact_matrix h3] at e2
    refine ⟨x, e1, e2, ?_⟩
    intro z hz
    have hdet : IsUnit (asM n n (lowerSym A)).det := by
      rw [ldl_det h3, isUnit_iff_ne_zero, prod_ne_zero_iff]
      intro i hi; exact h2 i (mem_range.1 hi)
    have : (asM n n (lowerSym A))⁻¹.mulVec ((asM n n (lowerSym A)).mulVec z) =
        (asM n n (lowerSym A))⁻¹.mulVec ((asM n n (lowerSym A)).mulVec (asV n x)) := by rw [hz, e2]
    rw [Matrix.mulVec_mulVec, Matrix.mulVec_mulVec, Matrix.nonsing_inv_mul _ hdet, Matrix.one_mulVec,
      Matrix.one_mulVec] at this
    exact this
  · omega

/-- **C21** matrix right-hand sides: `A X = B`. -/
theorem c21_backsub_matrix (n nc : Nat) (A B u w : Mat K) (hr : (compute n A).2 = n) :
    ∃ X, backsubM n nc (compute n A).1 B u w = some X ∧
      asM n n (lowerSym A) * asM n nc X = asM n nc B := by
  rcases compute_spec n A with ⟨-, h2, h3⟩ | ⟨h1, -⟩
  · obtain ⟨X, e1, e2⟩ := backsubM_col n nc (compute n A).1 B u w h2
    refine ⟨X, e1, ?_⟩
    ext i j
    obtain ⟨x, hx, hX⟩ := e2 j j.2
    obtain ⟨x', hx', hs, -⟩ := c21_backsub n A (fun i => B i j) (fun i => u i j) (fun i => w i j) hr
    rw [hx] at hx'; cases hx'
    have := congrFun hs i
    rw [asV_apply] at this
    rw [asM_apply, ← this]
    simp only [Matrix.mul_apply, Matrix.mulVec, dotProduct, asM_apply, asV_apply]
    apply sum_congr rfl
    intro t _
    rw [hX t t.2]
  · omega

/-- **C21** `get_inverse()` is the inverse. -/
theorem c21_inverse (n : Nat) (A u w : Mat K) (hr : (compute n A).2 = n) :
    ∃ X, getInverse n (compute n A).1 u w = some X ∧ asM n n X = (asM n n (lowerSym A))⁻¹ := by
  obtain ⟨X, e1, e2⟩ := c21_backsub_matrix n n A (fun r c => if r = c then 1 else 0) u w hr
  refine ⟨X, e1, ?_⟩
  have : asM n n (fun r c => if r = c then (1:K) else 0) = 1 := by
    ext i j
    rw [asM_apply, Matrix.one_apply]
    by_cases e : i = j
    · rw [if_pos e, if_pos (congrArg _ e)]
    · rw [if_neg e, if_neg (fun h => e (Fin.ext h))]
  rw [this] at e2
  exact (Matrix.inv_eq_right_inv e2).symm

/-- **C21** `determinant()` of a full-rank factorisation is `det A` (`n ≥ 1`). -/
theorem c21_determinant (n : Nat) (hn : 0 < n) (A : Mat K) (hr : (compute n A).2 = n) :
    determinant n (compute n A).1 = (asM n n (lowerSym A)).det := by
  rcases compute_spec n A with ⟨-, h2, h3⟩ | ⟨h1, -⟩
  · rw [determinant_eq n hn, ldl_det h3]
  · omega

/-- **C21** `mahalanobis(v) = vᵀ A⁻¹ v`. -/
theorem c21_mahalanobis (n : Nat) (A : Mat K) (v u w : Vec K) (hr : (compute n A).2 = n) :
    mahalanobis n (compute n A).1 v u w =
      some (dotProduct (asV n v) ((asM n n (lowerSym A))⁻¹.mulVec (asV n v))) := by
  obtain ⟨x, e1, e2, -⟩ := c21_backsub n A v u w hr
  rcases compute_spec n A with ⟨-, h2, h3⟩ | ⟨h1, -⟩
  · have hdet : IsUnit (asM n n (lowerSym A)).det := by
      rw [ldl_det h3, isUnit_iff_ne_zero, prod_ne_zero_iff]
      intro i hi; exact h2 i (mem_range.1 hi)
    rw [mahalanobis, e1, Option.bind_some]
    congr 1
    have hx : (asM n n (lowerSym A))⁻¹.mulVec (asV n v) = asV n x := by
      rw [← e2, Matrix.mulVec_mulVec, Matrix.nonsing_inv_mul _ hdet, Matrix.one_mulVec]
    rw [hx, dot_eq, ← Fin.sum_univ_eq_sum_range (fun i => v i * x i) n]
    rfl
  · omega

/-- **C22** `rank()` equals the size iff every leading principal minor is nonzero; otherwise it is the
index of the first vanishing one. -/
theorem c22_rank_full_iff (n : Nat) (A : Mat K) :
    (compute n A).2 = n ↔ ∀ k, k ≤ n → (asM k k (lowerSym A)).det ≠ 0 := by
  rcases compute_spec n A with ⟨h1, h2, h3⟩ | ⟨h1, h2, h3, h4⟩
  · refine ⟨fun _ k hk => ?_, fun _ => h1⟩
    rw [ldl_det (Fact_mono hk h3), prod_ne_zero_iff]
    intro i hi; exact h2 i (by have := mem_range.1 hi; omega)
  · refine ⟨fun h => by omega, fun h => ?_⟩
    exfalso
    apply h ((compute n A).2 + 1) (by omega)
    rw [ldl_det h4, prod_range_succ, h3, mul_zero]

theorem c22_rank_is_first_zero_minor (n : Nat) (A : Mat K) (h : (compute n A).2 < n) :
    (asM ((compute n A).2 + 1) ((compute n A).2 + 1) (lowerSym A)).det = 0 ∧
    ∀ k, k ≤ (compute n A).2 → (asM k k (lowerSym A)).det ≠ 0 := by
  rcases compute_spec n A with ⟨h1, -, -⟩ | ⟨-, h2, h3, h4⟩
  · omega
  · refine ⟨by rw [ldl_det h4, prod_range_succ, h3, mul_zero], ?_⟩
    intro k hk
    rw [ldl_det (Fact_mono (by omega : k ≤ (compute n A).2 + 1) h4), prod_ne_zero_iff]
    intro i hi; exact h2 i (by have := mem_range.1 hi; omega)

/-- **C22** with a vanishing pivot, `backsub` divides by zero. -/
theorem c22_backsub_needs_full_rank (n : Nat) (A : Mat K) (v u w : Vec K) (h : (compute n A).2 < n) :
    backsub n (compute n A).1 v u w = none := by
  rcases compute_spec n A with ⟨h1, -, -⟩ | ⟨-, h2, h3, h4⟩
  · omega
  · rw [backsub, divDiag_none n _ _ _ h h3]; rfl

end field

section ordered
variable {K : Type _} [Field K] [LinearOrder K] [IsStrictOrderedRing K]

/-- principal submatrices: zero-padding a vector -/
theorem quad_pad (n k : Nat) (hk : k ≤ n) (B : Mat K) (x : Fin k → K) :
    ∃ X : Fin n → K, (x ≠ 0 → X ≠ 0) ∧
      dotProduct X ((asM n n B).mulVec X) = dotProduct x ((asM k k B).mulVec x) := by
  let y : Vec K := fun i => if h : i < k then x ⟨i, h⟩ else 0
  have hxy : x = asV k y := by funext i; simp [y]
  refine ⟨asV n y, ?_, ?_⟩
  · intro hx h0
    apply hx
    rw [hxy]
    funext i
    exact congrFun h0 ⟨i, by omega⟩
  · have hq : ∀ t : Nat, dotProduct (asV t y) ((asM t t B).mulVec (asV t y)) =
        ∑ i ∈ range t, y i * ∑ j ∈ range t, B i j * y j := by
      intro t
      rw [← Fin.sum_univ_eq_sum_range (fun i => y i * ∑ j ∈ range t, B i j * y j) t]
      apply sum_congr rfl
      intro i _
      rw [mulVec_range]; rfl
    have hout : ∀ i, k ≤ i → y i = 0 := by
      intro i hi; simp only [y]; rw [dif_neg (by omega)]
    have hpad : ∀ f : Nat → K, (∀ i, k ≤ i → f i = 0) → ∑ i ∈ range n, f i = ∑ i ∈ range k, f i := by
      intro f hf
      exact (sum_subset (range_subset_range.2 hk) (fun i _ hi => hf i (by simpa using hi))).symm
    rw [hxy, hq, hq, hpad _ (fun i hi => by rw [hout i hi, zero_mul])]
    apply sum_congr rfl
    intro i _
    rw [hpad _ (fun j hj => by rw [hout j hj, mul_zero])]

/-- **C20** On every symmetric positive definite matrix (given by its lower half) the factorisation runs
to the end, with all pivots positive. -/
theorem c20_posdef_full_rank (n : Nat) (A : Mat K) (hA : SymPosDef (asM n n (lowerSym A))) :
    (compute n A).2 = n ∧ ∀ i, i < n → 0 < (compute n A).1 i i := by
  have pos : ∀ k, k < n → Fact (k+1) A (compute n A).1 → 0 < (compute n A).1 k k := by
    intro k hk hf
    obtain ⟨x, hx, hq⟩ := exists_pivot_vector hf
    obtain ⟨X, hX, hQ⟩ := quad_pad n (k+1) hk (lowerSym A) x
    rw [← hq, ← hQ]
    exact hA.2 X (hX hx)
  rcases compute_spec n A with ⟨h1, h2, h3⟩ | ⟨h1, h2, h3, h4⟩
  · exact ⟨h1, fun i hi => pos i hi (Fact_mono (by omega) h3)⟩
  · have := pos _ h1 h4
    rw [h3] at this
    exact absurd this (lt_irrefl _)

/-- **C20** the documented statement: for every symmetric positive definite `A`, `L` is unit lower
triangular, `D` is diagonal with positive entries, and `L * D * Lᵀ = A`. -/
theorem c20_cholesky_of_posdef (n : Nat) (A u u' : Mat K) (hA : SymPosDef (asM n n A)) :
    let m := (compute n A).1
    let L := asM n n (getUnscaledL n m u)
    let D := asM n n (getD n m u')
    (∀ i, L i i = 1) ∧ (∀ i j, i < j → L i j = 0) ∧
    (∀ i j, i ≠ j → D i j = 0) ∧ (∀ i, 0 < D i i) ∧
    L * D * L.transpose = asM n n A := by
  intro m L D
  have hs := lowerSym_of_symm n A hA.1
  have hA' : SymPosDef (asM n n (lowerSym A)) := by rw [hs]; exact hA
  obtain ⟨hr, hpos⟩ := c20_posdef_full_rank n A hA'
  obtain ⟨h1, h1', h2, -, h4⟩ := c20_ldl_of_full_rank n A u u' hr
  refine ⟨h1, h1', h2, ?_, by rw [← hs]; exact h4⟩
  intro i
  show 0 < getD n m u' i i
  rw [getD_apply n m u' i i i.2 i.2, if_pos rfl]
  exact hpos i i.2

/-- conversely positive pivots imply positive definiteness, so the hypothesis is necessary -/
theorem c20_posdef_iff_positive_pivots (n : Nat) (A : Mat K) :
    SymPosDef (asM n n (lowerSym A)) ↔
      (compute n A).2 = n ∧ ∀ i, i < n → 0 < (compute n A).1 i i := by
  refine ⟨c20_posdef_full_rank n A, ?_⟩
  rintro ⟨hr, hpos⟩
  rcases compute_spec n A with ⟨-, h2, h3⟩ | ⟨h1, -⟩
  · rw [fact_matrix h3]
    refine ⟨ldl_symm _ _, ?_⟩
    intro x hx
    set m := (compute n A).1
    set y := (Lmat n m).transpose.mulVec x with hy
    have hy0 : y ≠ 0 := by
      intro h0
      apply hx
      have hu : IsUnit (Lmat n m).transpose.det := by
        rw [Matrix.det_transpose, Lmat_det]; exact isUnit_one
      have : (Lmat n m).transpose⁻¹.mulVec y = x := by
        rw [hy, Matrix.mulVec_mulVec, Matrix.nonsing_inv_mul _ hu, Matrix.one_mulVec]
      rw [← this, h0, Matrix.mulVec_zero]
    have hq : dotProduct x ((Lmat n m * Dmat n m * (Lmat n m).transpose).mulVec x) =
        ∑ i : Fin n, m i i * (y i * y i) := by
      rw [← Matrix.mulVec_mulVec, ← hy, ← Matrix.mulVec_mulVec, Matrix.dotProduct_mulVec,
        ← Matrix.mulVec_transpose, ← hy, Dmat]
      simp only [dotProduct, Matrix.mulVec_diagonal]
      apply sum_congr rfl
      intro i _; ring
    rw [hq]
    obtain ⟨i, hi⟩ := Function.ne_iff.1 hy0
    apply sum_pos'
    · intro j _; exact mul_nonneg (le_of_lt (hpos j j.2)) (mul_self_nonneg _)
    · exact ⟨i, mem_univ _, mul_pos (hpos i i.2) (mul_self_pos.2 hi)⟩
  · omega

/-- **C22** for positive semidefinite matrices `determinant()` is the determinant even when the
factorisation stops early. -/
theorem c22_psd_determinant (n : Nat) (hn : 0 < n) (A : Mat K) (hA : SymPosSemidef (asM n n (lowerSym A))) :
    determinant n (compute n A).1 = (asM n n (lowerSym A)).det := by
  rcases compute_spec n A with ⟨h1, h2, h3⟩ | ⟨h1, h2, h3, h4⟩
  · exact c21_determinant n hn A h1
  · rw [determinant_eq n hn, prod_eq_zero (f := fun i => (compute n A).1 i i) (mem_range.2 h1) h3]
    obtain ⟨x, hx, hq⟩ := exists_pivot_vector h4
    obtain ⟨X, hX, hQ⟩ := quad_pad n _ h1 (lowerSym A) x
    rw [hq, h3] at hQ
    set M := asM n n (lowerSym A)
    -- positive semidefinite and `XᵀMX = 0` force `MX = 0`
    have hMX : M.mulVec X = 0 := by
      set y := M.mulVec X with hy
      by_contra hne
      have hyy : 0 < dotProduct y y := by
        obtain ⟨i, hi⟩ := Function.ne_iff.1 hne
        apply sum_pos'
        · intro j _; exact mul_self_nonneg _
        · exact ⟨i, mem_univ _, mul_self_pos.2 hi⟩
      have hXy : dotProduct X (M.mulVec y) = dotProduct y y := by
        rw [Matrix.dotProduct_mulVec, ← Matrix.mulVec_transpose, hA.1]
      -- consider X + t y
      have hexp : ∀ t : K, 0 ≤ 2 * t * dotProduct y y + t * t * dotProduct y (M.mulVec y) := by
        intro t
        have := hA.2 (X + t • y)
        rw [Matrix.mulVec_add, Matrix.mulVec_smul, add_dotProduct, dotProduct_add, dotProduct_add,
          smul_dotProduct, smul_dotProduct, dotProduct_smul, dotProduct_smul, hXy, hQ, ← hy] at this
        simp only [smul_eq_mul] at this
        linarith
      set q := dotProduct y (M.mulVec y)
      set s := dotProduct y y
      have hq0 : 0 ≤ q := hA.2 y
      have := hexp (-(s / (q + s)))
      have hqs : 0 < q + s := by linarith
      have e : 2 * (-(s / (q + s))) * s + (-(s / (q + s))) * (-(s / (q + s))) * q =
          - (s * s * (q + 2 * s) / ((q + s) * (q + s))) := by
        field_simp; ring
      rw [e] at this
      have hp : 0 < s * s * (q + 2 * s) / ((q + s) * (q + s)) := by
        apply div_pos
        · exact mul_pos (mul_pos hyy hyy) (by linarith)
        · exact mul_pos hqs hqs
      linarith
    symm
    by_contra hdet
    apply hX hx
    have hu : IsUnit M.det := isUnit_iff_ne_zero.2 hdet
    have : M⁻¹.mulVec (M.mulVec X) = X := by
      rw [Matrix.mulVec_mulVec, Matrix.nonsing_inv_mul _ hu, Matrix.one_mulVec]
    rw [← this, hMX, Matrix.mulVec_zero]

end ordered

/-- **C21** `get_L()` with the real square root: lower triangular with positive diagonal, and
`get_L() * get_L()ᵀ = A` for symmetric positive definite `A`. -/
theorem c21_get_L (n : Nat) (A u : Mat ℝ) (hA : SymPosDef (asM n n A)) :
    let L := asM n n (getL Real.sqrt n (compute n A).1 u)
    (∀ i j, i < j → L i j = 0) ∧ (∀ i, 0 < L i i) ∧ L * L.transpose = asM n n A := by
  intro L
  have hs := lowerSym_of_symm n A hA.1
  have hA' : SymPosDef (asM n n (lowerSym A)) := by rw [hs]; exact hA
  obtain ⟨hr, hpos⟩ := c20_posdef_full_rank n A hA'
  rcases compute_spec n A with ⟨-, h2, h3⟩ | ⟨h1, -⟩
  · refine ⟨?_, ?_, ?_⟩
    · intro i j hij
      have : (i : Nat) < j := hij
      simp only [L, asM_apply]
      rw [getL_apply _ _ _ _ _ _ i.2 j.2, if_neg (by omega), if_neg (by omega)]
    · intro i
      simp only [L, asM_apply]
      rw [getL_apply _ _ _ _ _ _ i.2 i.2, if_neg (by omega), if_pos rfl]
      exact Real.sqrt_pos.2 (hpos i i.2)
    · simp only [L]
      rw [asM_getL, Matrix.transpose_mul, Matrix.diagonal_transpose, ← Matrix.mul_assoc,
        Matrix.mul_assoc (Lmat n _), Matrix.diagonal_mul_diagonal, ← hs, fact_matrix h3, Dmat]
      congr 3
      funext i
      exact Real.mul_self_sqrt (le_of_lt (hpos i i.2))
  · omega

/-! ### the hypotheses are met -/

/-- `[[4,*],[2,3]]` (upper half arbitrary): a positive definite example -/
def ex : Mat ℚ := fun r c => if r = 0 then (if c = 0 then 4 else 777) else if c = 0 then 2 else 3

example : SymPosDef (asM 2 2 (lowerSym ex)) := by
  constructor
  · ext i j; fin_cases i <;> fin_cases j <;> simp [lowerSym, ex]
  · intro x hx
    have e : dotProduct x ((asM 2 2 (lowerSym ex)).mulVec x) = (2 * x 0 + x 1)^2 + 2 * x 1 ^ 2 := by
      simp [dotProduct, Matrix.mulVec, Fin.sum_univ_two, lowerSym, ex]; ring
    rw [e]
    by_contra hle
    have h1 : x 1 = 0 := by nlinarith [sq_nonneg (2 * x 0 + x 1), sq_nonneg (x 1)]
    have h0 : x 0 = 0 := by rw [h1] at hle; nlinarith [sq_nonneg (x 0)]
    exact hx (by funext i; fin_cases i <;> simp [h0, h1])

/-- **C22** `rank()` is not the rank: `diag(0,1)` reports 0. -/
theorem c22_rank_is_not_matrix_rank :
    (compute 2 (fun r c => if r = 1 ∧ c = 1 then (1:ℚ) else 0)).2 = 0 := rfl

/-- **C22** without semidefiniteness `determinant()` after an early stop can be wrong:
`[[0,1],[1,0]]` gives 0, the determinant is -1. -/
theorem c22_determinant_early_stop_wrong :
    ∃ A : Mat ℚ, (asM 2 2 A).transpose = asM 2 2 A ∧
      determinant 2 (compute 2 A).1 = 0 ∧ (asM 2 2 A).det = -1 := by
  refine ⟨fun r c => if r = c then 0 else 1, ?_, ?_, ?_⟩
  · ext i j; simp [eq_comm]
  · show (0:ℚ) * 0 = 0; norm_num
  · rw [Matrix.det_fin_two]; simp

end TooN.Chol
