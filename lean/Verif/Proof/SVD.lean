import Verif.Spec.SVD
import Verif.Proof.LU
import Verif.Proof.Ops
import Verif.Proof.WLS
import Verif.Props.Ops
import Mathlib.Algebra.Order.BigOperators.Ring.Finset
import Mathlib.LinearAlgebra.Matrix.Rank
import Mathlib.LinearAlgebra.Matrix.NonsingularInverse
import Mathlib.Tactic.Ring
import Mathlib.Tactic.Linarith
/-! # SVD.h proofs -/
set_option linter.unusedSectionVars false
namespace TooN.SVD
open Finset Matrix TooN.LU TooN.Ops
variable {K : Type _} [Field K] [LinearOrder K] [IsStrictOrderedRing K]

omit [IsStrictOrderedRing K] in
theorem IsSVD.transpose {r c k : Nat} {A : Matrix (Fin r) (Fin c) K} {U : Matrix (Fin r) (Fin k) K} {s : Fin k → K}
    {VT : Matrix (Fin k) (Fin c) K} (h : IsSVD A U s VT) : IsSVD Aᵀ VTᵀ s Uᵀ := by
  refine ⟨?_, ?_, ?_, h.nonneg, h.desc⟩
  · rw [← h.prod, transpose_mul, transpose_mul, diagonal_transpose, Matrix.mul_assoc]
  · rw [transpose_transpose]; exact h.orthV
  · rw [transpose_transpose]; exact h.orthU

/-- casting the inner dimension -/
theorem IsSVD.castDim {r c k k' : Nat} (e : k = k') {A : Matrix (Fin r) (Fin c) K} {U : Mat K} {s : Vec K} {VT : Mat K}
    (h : IsSVD A (asM r k U) (asV k s) (asM k c VT)) : IsSVD A (asM r k' U) (asV k' s) (asM k' c VT) := by
  subst e; exact h

theorem getInvDiag_eq (s : St K) (h0 : ∀ i, i < s.minDim → 0 ≤ s.diag i) (condition : K) (u : Vec K) :
    ∃ inv, getInvDiag s condition u = some inv ∧ ∀ i, i < s.minDim →
      inv i = if s.diag i * condition ≤ s.diag 0 then 0 else (s.diag i)⁻¹ := by
  by_cases hk : s.minDim = 0
  · refine ⟨u, ?_, fun i hi => by omega⟩
    unfold getInvDiag; rw [hk]; rfl
  refine forNM_total (fun k inv => ∀ i, i < k →
      inv i = if s.diag i * condition ≤ s.diag 0 then 0 else (s.diag i)⁻¹) s.minDim _ u
    (fun i hi => absurd hi (Nat.not_lt_zero i)) ?_
  intro i t hi ht
  by_cases hc : s.diag i * condition ≤ s.diag 0
  · refine ⟨Vec.set t i 0, by rw [if_pos hc], ?_⟩
    intro j hj
    by_cases e : j = i
    · subst e; rw [Vec.set_self, if_pos hc]
    · rw [Vec.set_ne _ _ _ _ e]; exact ht j (by omega)
  · have hz : s.diag i ≠ 0 := by
      intro hz; apply hc; rw [hz, zero_mul]; exact h0 0 (by omega)
    refine ⟨Vec.set t i (1 / s.diag i), by rw [if_neg hc, if_neg hz], ?_⟩
    intro j hj
    by_cases e : j = i
    · subst e; rw [Vec.set_self, if_neg hc, one_div]
    · rw [Vec.set_ne _ _ _ _ e]; exact ht j (by omega)

theorem asM_diagmultMV (R C : Nat) (A : Mat K) (v : Vec K) (u : Mat K) :
    asM R C (diagmultMV R C A v u) = asM R C A * diagonal (asV C v) := by
  ext i j
  rw [Matrix.mul_diagonal, asM_apply]
  show evalMc _ _ _ _ _ _ = _
  rw [evalMc_apply, if_pos ⟨i.2, j.2⟩]; rfl

theorem asM_diagmultVM (R C : Nat) (v : Vec K) (A : Mat K) (u : Mat K) :
    asM R C (diagmultVM R C v A u) = diagonal (asV R v) * asM R C A := by
  ext i j
  rw [Matrix.diagonal_mul, asM_apply]
  show evalM _ _ _ _ _ _ = _
  rw [evalM_apply, if_pos ⟨i.2, j.2⟩]; rfl

theorem asV_diagmultVV (n : Nat) (a b u : Vec K) :
    asV n (diagmultVV n a b u) = (diagonal (asV n a)).mulVec (asV n b) := by
  funext i
  rw [Matrix.mulVec_diagonal, asV_apply]
  show pairwiseV _ _ _ _ _ _ = _
  unfold pairwiseV
  rw [forN_vecset, if_pos i.2]; rfl

/-- the diagonal of the pseudo-inverse chosen by the threshold -/
def invS (s : St K) (condition : K) : Fin s.minDim → K :=
  fun i => if s.diag i * condition ≤ s.diag 0 then 0 else (s.diag i)⁻¹

theorem getPinv_eq (s : St K) (h0 : ∀ i, i < s.minDim → 0 ≤ s.diag i) (condition : K) (j : Junk K) :
    ∃ P, getPinv s condition j = some P ∧ asM s.cols s.rows P =
      (asM s.minDim s.cols (getVT s))ᵀ * diagonal (invS s condition) * (asM s.rows s.minDim (getU s))ᵀ := by
  obtain ⟨inv, h1, h2⟩ := getInvDiag_eq s h0 condition j.v1
  unfold getPinv
  rw [h1]
  refine ⟨_, rfl, ?_⟩
  rw [Ops.c09_mul_matrix, asM_diagmultMV, WLS.asM_T, WLS.asM_T]
  have : asV s.minDim inv = invS s condition := by funext i; exact h2 i i.2
  rw [this]

theorem backsubM_eq (s : St K) (h0 : ∀ i, i < s.minDim → 0 ≤ s.diag i) (condition : K) (c2 : Nat) (rhs : Mat K)
    (j : Junk K) :
    ∃ X, backsubM s condition c2 rhs j = some X ∧ asM s.cols c2 X =
      (asM s.minDim s.cols (getVT s))ᵀ * diagonal (invS s condition) * (asM s.rows s.minDim (getU s))ᵀ *
        asM s.rows c2 rhs := by
  obtain ⟨inv, h1, h2⟩ := getInvDiag_eq s h0 condition j.v1
  unfold backsubM
  rw [h1]
  refine ⟨_, rfl, ?_⟩
  rw [Ops.c09_mul_matrix, asM_diagmultVM, Ops.c09_mul_matrix, WLS.asM_T, WLS.asM_T]
  have : asV s.minDim inv = invS s condition := by funext i; exact h2 i i.2
  rw [this]
  simp only [Matrix.mul_assoc]

theorem backsubV_eq (s : St K) (h0 : ∀ i, i < s.minDim → 0 ≤ s.diag i) (condition : K) (rhs : Vec K)
    (j : Junk K) :
    ∃ x, backsubV s condition rhs j = some x ∧ asV s.cols x =
      ((asM s.minDim s.cols (getVT s))ᵀ * diagonal (invS s condition) * (asM s.rows s.minDim (getU s))ᵀ).mulVec
        (asV s.rows rhs) := by
  obtain ⟨inv, h1, h2⟩ := getInvDiag_eq s h0 condition j.v1
  unfold backsubV
  rw [h1]
  refine ⟨_, rfl, ?_⟩
  rw [(Ops.c09_mul_vector _ _ _ _ (fun _ => 0) _ (fun _ => 0)).1, asV_diagmultVV,
    (Ops.c09_mul_vector _ _ _ _ (fun _ => 0) _ (fun _ => 0)).1, WLS.asM_T, WLS.asM_T]
  have : asV s.minDim inv = invS s condition := by funext i; exact h2 i i.2
  rw [this]
  simp only [Matrix.mulVec_mulVec, Matrix.mul_assoc]

/-- what `compute` stores is an SVD of the input, in both branches -/
theorem compute_isSVD (g : Gesvd K) (hg : GesvdOK g) (rows cols : Nat) (A : Mat K) :
    let s := compute g rows cols A
    IsSVD (asM rows cols A) (asM rows (min rows cols) (getU s)) (asV (min rows cols) (getDiagonal s))
      (asM (min rows cols) cols (getVT s)) := by
  intro s
  by_cases hv : rows ≥ cols
  · have hmin : min cols rows = cols := Nat.min_eq_left hv
    have hmin' : min rows cols = cols := Nat.min_eq_right hv
    have hs : s = ⟨rows, cols, (g 'S' 'O' cols rows (pack cols A) cols cols cols).1,
        (g 'S' 'O' cols rows (pack cols A) cols cols cols).2.1,
        (g 'S' 'O' cols rows (pack cols A) cols cols cols).2.2⟩ := by
      simp only [s, compute, decide_eq_true hv, if_true]
    have hvs : s.isVertical := by show s.rows ≥ s.cols; rw [hs]; exact hv
    have h := hg.so cols rows (pack cols A) cols cols cols le_rfl le_rfl
    rw [asM_fview_pack] at h
    have h := (IsSVD.castDim hmin h).transpose
    rw [transpose_transpose] at h
    have eU : getU s = cview cols (g 'S' 'O' cols rows (pack cols A) cols cols cols).1 := by
      unfold getU; rw [if_pos hvs, hs]
    have eV : getVT s = cview cols (g 'S' 'O' cols rows (pack cols A) cols cols cols).2.2 := by
      unfold getVT; rw [if_pos hvs, hs]
      unfold St.minDim; dsimp only; rw [hmin']
    refine IsSVD.castDim hmin'.symm ?_
    rw [eU, eV]
    unfold getDiagonal
    rw [hs]
    rw [← WLS.asM_T, ← WLS.asM_T] at h
    exact h
  · have hlt : rows < cols := by omega
    have hmin : min cols rows = rows := Nat.min_eq_right (by omega)
    have hmin' : min rows cols = rows := Nat.min_eq_left (by omega)
    have hs : s = ⟨rows, cols, (g 'O' 'S' cols rows (pack cols A) cols cols rows).1,
        (g 'O' 'S' cols rows (pack cols A) cols cols rows).2.1,
        (g 'O' 'S' cols rows (pack cols A) cols cols rows).2.2⟩ := by
      simp only [s, compute, decide_eq_false hv, hmin']
      rfl
    have hvs : ¬ s.isVertical := by show ¬ (s.rows ≥ s.cols); rw [hs]; exact hv
    have h := hg.os cols rows (pack cols A) cols cols rows le_rfl (by omega)
    rw [asM_fview_pack] at h
    have h := (IsSVD.castDim hmin h).transpose
    rw [transpose_transpose] at h
    have eU : getU s = cview rows (g 'O' 'S' cols rows (pack cols A) cols cols rows).2.2 := by
      unfold getU; rw [if_neg hvs, hs]
      unfold St.minDim; dsimp only; rw [hmin']
    have eV : getVT s = cview cols (g 'O' 'S' cols rows (pack cols A) cols cols rows).1 := by
      unfold getVT; rw [if_neg hvs, hs]
    refine IsSVD.castDim hmin'.symm ?_
    rw [eU, eV]
    unfold getDiagonal
    rw [hs]
    rw [← WLS.asM_T, ← WLS.asM_T] at h
    exact h

/-- pseudo-inverse of a truncated decomposition -/
theorem moorePenrose_of_svd {r c k : Nat} {U : Matrix (Fin r) (Fin k) K} {VT : Matrix (Fin k) (Fin c) K}
    (hU : Uᵀ * U = 1) (hV : VT * VTᵀ = 1) (s t : Fin k → K) (h1 : ∀ i, s i * t i * s i = s i)
    (h2 : ∀ i, t i * s i * t i = t i) :
    MoorePenrose (U * diagonal s * VT) (VTᵀ * diagonal t * Uᵀ) := by
  have e1 : U * diagonal s * VT * (VTᵀ * diagonal t * Uᵀ) = U * diagonal (fun i => s i * t i) * Uᵀ := by
    rw [← diagonal_mul_diagonal]
    simp only [Matrix.mul_assoc]
    rw [← Matrix.mul_assoc VT, hV, Matrix.one_mul]
  have e2 : VTᵀ * diagonal t * Uᵀ * (U * diagonal s * VT) = VTᵀ * diagonal (fun i => t i * s i) * VT := by
    rw [← diagonal_mul_diagonal]
    simp only [Matrix.mul_assoc]
    rw [← Matrix.mul_assoc Uᵀ, hU, Matrix.one_mul]
  refine ⟨?_, ?_, ?_, ?_⟩
  · rw [e1]
    have : U * diagonal (fun i => s i * t i) * Uᵀ * (U * diagonal s * VT) =
        U * (diagonal (fun i => s i * t i) * diagonal s) * VT := by
      simp only [Matrix.mul_assoc]
      rw [← Matrix.mul_assoc Uᵀ, hU, Matrix.one_mul]
    rw [this, diagonal_mul_diagonal]
    simp only [h1]
  · rw [e2]
    have : VTᵀ * diagonal (fun i => t i * s i) * VT * (VTᵀ * diagonal t * Uᵀ) =
        VTᵀ * (diagonal (fun i => t i * s i) * diagonal t) * Uᵀ := by
      simp only [Matrix.mul_assoc]
      rw [← Matrix.mul_assoc VT, hV, Matrix.one_mul]
    rw [this, diagonal_mul_diagonal]
    simp only [h2]
  · rw [e1, transpose_mul, transpose_mul, transpose_transpose, diagonal_transpose, Matrix.mul_assoc]
  · rw [e2, transpose_mul, transpose_mul, transpose_transpose, diagonal_transpose, Matrix.mul_assoc]

/-- least squares from the Moore-Penrose equations -/
theorem moorePenrose_lsq {r c : Nat} {A : Matrix (Fin r) (Fin c) K} {X : Matrix (Fin c) (Fin r) K}
    (h : MoorePenrose A X) (b : Fin r → K) (y : Fin c → K) :
    (A.mulVec (X.mulVec b) - b) ⬝ᵥ (A.mulVec (X.mulVec b) - b) ≤ (A.mulVec y - b) ⬝ᵥ (A.mulVec y - b) := by
  set x := X.mulVec b with hx
  have horth : Aᵀ.mulVec (A.mulVec x - b) = 0 := by
    rw [Matrix.mulVec_sub, hx, Matrix.mulVec_mulVec, Matrix.mulVec_mulVec]
    have : Aᵀ * (A * X) = Aᵀ := by
      rw [← h.symAX, ← transpose_mul, h.axa]
    rw [Matrix.mul_assoc, this, sub_self]
  have e : A.mulVec y - b = (A.mulVec x - b) + A.mulVec (y - x) := by
    rw [Matrix.mulVec_sub]; abel
  rw [e, dotProduct_add, add_dotProduct, add_dotProduct]
  have hc : (A.mulVec x - b) ⬝ᵥ A.mulVec (y - x) = 0 := by
    rw [Matrix.dotProduct_mulVec, ← Matrix.mulVec_transpose, horth, zero_dotProduct]
  have hc' : A.mulVec (y - x) ⬝ᵥ (A.mulVec x - b) = 0 := by rw [dotProduct_comm]; exact hc
  rw [hc, hc']
  have hp : 0 ≤ A.mulVec (y - x) ⬝ᵥ A.mulVec (y - x) := Finset.sum_nonneg (fun i _ => mul_self_nonneg _)
  linarith

/-- minimum norm among the least squares solutions -/
theorem moorePenrose_minnorm {r c : Nat} {A : Matrix (Fin r) (Fin c) K} {X : Matrix (Fin c) (Fin r) K}
    (h : MoorePenrose A X) (b : Fin r → K) (y : Fin c → K) (hy : A.mulVec y = A.mulVec (X.mulVec b)) :
    X.mulVec b ⬝ᵥ X.mulVec b ≤ y ⬝ᵥ y := by
  set x := X.mulVec b with hx
  have e : y = x + (y - x) := by abel
  have hc : x ⬝ᵥ (y - x) = 0 := by
    have h1 : x = (X * A).mulVec x := by
      rw [hx, Matrix.mulVec_mulVec, h.xax]
    have h2 : (X * A).mulVec (y - x) = 0 := by
      rw [← Matrix.mulVec_mulVec, Matrix.mulVec_sub, hy, sub_self, Matrix.mulVec_zero]
    have h3 : (X * A).mulVec x ⬝ᵥ (y - x) = 0 := by
      rw [← h.symXA, Matrix.mulVec_transpose, ← Matrix.dotProduct_mulVec, h2, dotProduct_zero]
    rwa [← h1] at h3
  rw [e, dotProduct_add, add_dotProduct, add_dotProduct, hc, dotProduct_comm (y - x) x, hc]
  have hp : 0 ≤ (y - x) ⬝ᵥ (y - x) := Finset.sum_nonneg (fun i _ => mul_self_nonneg _)
  linarith

/-- the pseudo-inverse is unique -/
theorem moorePenrose_unique {r c : Nat} {A : Matrix (Fin r) (Fin c) K} {X Y : Matrix (Fin c) (Fin r) K}
    (hX : MoorePenrose A X) (hY : MoorePenrose A Y) : X = Y := by
  have hAX : A * X = A * Y := by
    calc A * X = (A * X)ᵀ := hX.symAX.symm
      _ = (A * Y * A * X)ᵀ := by rw [hY.axa]
      _ = (A * X)ᵀ * (A * Y)ᵀ := by rw [Matrix.mul_assoc, Matrix.mul_assoc, ← Matrix.mul_assoc, transpose_mul]
      _ = A * X * A * Y := by rw [hX.symAX, hY.symAX]; simp only [Matrix.mul_assoc]
      _ = A * Y := by rw [hX.axa]
  have hXA : X * A = Y * A := by
    calc X * A = (X * A)ᵀ := hX.symXA.symm
      _ = (X * (A * Y * A))ᵀ := by rw [hY.axa]
      _ = (Y * A)ᵀ * (X * A)ᵀ := by rw [← transpose_mul]; simp only [Matrix.mul_assoc]
      _ = Y * (A * X * A) := by rw [hX.symXA, hY.symXA]; simp only [Matrix.mul_assoc]
      _ = Y * A := by rw [hX.axa]
  calc X = X * A * X := hX.xax.symm
    _ = Y * A * X := by rw [hXA]
    _ = Y * (A * X) := Matrix.mul_assoc _ _ _
    _ = Y * (A * Y) := by rw [hAX]
    _ = Y := by rw [← Matrix.mul_assoc]; exact hY.xax

end TooN.SVD
