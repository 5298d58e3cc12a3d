import Verif.Spec.LU
import Mathlib.LinearAlgebra.Matrix.NonsingularInverse
import Mathlib.LinearAlgebra.Matrix.Determinant.Basic
import Mathlib.LinearAlgebra.Matrix.Block
import Mathlib.Algebra.BigOperators.Fin
import Mathlib.Tactic.Ring
/-! # LU.h proofs -/
set_option linter.unusedSectionVars false
namespace TooN.LU
open Finset
variable {K : Type _} [Field K]

theorem fview_eq_T (ld : Nat) (b : Buf K) : fview ld b = Mat.T (cview ld b) := rfl

theorem cview_pack (ld : Nat) (m : Mat K) (r c : Nat) (hc : c < ld) : cview ld (pack ld m) r c = m r c := by
  have h0 : 0 < ld := by omega
  show m ((r * ld + c) / ld) ((r * ld + c) % ld) = m r c
  have h1 : (r * ld + c) / ld = r := by
    rw [Nat.mul_comm, Nat.mul_add_div h0, Nat.div_eq_of_lt hc, Nat.add_zero]
  have h2 : (r * ld + c) % ld = c := by
    rw [Nat.mul_comm, Nat.mul_add_mod, Nat.mod_eq_of_lt hc]
  rw [h1, h2]

theorem asM_fview_pack (n c : Nat) (m : Mat K) : asM c n (fview c (pack c m)) = (asM n c m).transpose := by
  ext i j
  exact cview_pack c m j i i.2

/-- the permutation `r ↦` row index selected by one interchange -/
def sw (i j r : Nat) : Nat := if r = i then j else if r = j then i else r

theorem sw_lt {n i j r : Nat} (hi : i < n) (hj : j < n) (hr : r < n) : sw i j r < n := by
  unfold sw; split
  · exact hj
  · split <;> assumption

theorem sw_sw (i j r : Nat) : sw i j (sw i j r) = r := by
  unfold sw
  by_cases h1 : r = i
  · subst h1
    rw [if_pos rfl]
    by_cases h : j = r
    · rw [if_pos h, h]
    · rw [if_neg h, if_pos rfl]
  · rw [if_neg h1]
    by_cases h2 : r = j
    · subst h2; rw [if_pos rfl, if_pos rfl]
    · rw [if_neg h2, if_neg h1, if_neg h2]

theorem interchange_eq (i j : Nat) (A : Mat K) (r c : Nat) : interchange i j A r c = A (sw i j r) c := by
  unfold interchange sw
  by_cases h1 : r = i
  · rw [if_pos h1, if_pos h1]
  · rw [if_neg h1, if_neg h1]
    by_cases h2 : r = j
    · rw [if_pos h2, if_pos h2]
    · rw [if_neg h2, if_neg h2]

theorem sum_sw (n i j : Nat) (hi : i < n) (hj : j < n) (f : Nat → K) :
    ∑ c ∈ range n, f (sw i j c) = ∑ c ∈ range n, f c := by
  refine Finset.sum_nbij' (sw i j) (sw i j) ?_ ?_ ?_ ?_ ?_
  · intro a ha; exact mem_range.2 (sw_lt hi hj (mem_range.1 ha))
  · intro a ha; exact mem_range.2 (sw_lt hi hj (mem_range.1 ha))
  · intro a _; exact sw_sw i j a
  · intro a _; exact sw_sw i j a
  · intro a _; rfl

/-- one C++ swap of two elements -/
theorem swapV_eq (x : Vec K) (i j r : Nat) :
    Vec.set (Vec.set x i (x j)) j (x i) r = x (sw i j r) := by
  unfold sw Vec.set
  by_cases h1 : r = i
  · subst h1
    rw [if_pos rfl, if_pos rfl]
    by_cases h : r = j
    · rw [if_pos h, h]
    · rw [if_neg h]
  · by_cases h2 : r = j
    · rw [if_pos h2, if_neg h1, if_pos h2]
    · rw [if_neg h2, if_neg h1, if_neg h1, if_neg h2]

theorem swapLoopV_spec (n : Nat) (ipiv : Nat → Nat) (h : ∀ i, i < n → i + 1 ≤ ipiv i ∧ ipiv i ≤ n)
    (F : Mat K) (y : Vec K) (r : Nat) :
    ∑ c ∈ range n, F c r * swapLoopV n ipiv y c = ∑ c ∈ range n, interchanges n ipiv F c r * y c := by
  have := forDown_inv (fun k (x : Vec K) =>
    ∑ c ∈ range n, interchanges k ipiv F c r * x c = ∑ c ∈ range n, interchanges n ipiv F c r * y c) n
    (fun i result => Vec.set (Vec.set result i (result (ipiv i - 1))) (ipiv i - 1) (result i)) y rfl (by
      intro i x hi hx
      rw [← hx, ← sum_sw n i (ipiv i - 1) hi (by have := h i hi; omega)]
      refine Finset.sum_congr rfl fun c _ => ?_
      rw [swapV_eq, sw_sw]
      congr 1
      show _ = interchange i (ipiv i - 1) (interchanges i ipiv F) c r
      rw [interchange_eq])
  exact this

/-- column `j` of the matrix swap loop is the vector swap loop -/
theorem swapLoopM_col (n : Nat) (cols : Nat) (ipiv : Nat → Nat) (A : Mat K) (j : Nat) (hj : j < cols) (i : Nat) :
    swapLoopM n cols ipiv A i j = swapLoopV n ipiv (fun r => A r j) i := by
  unfold swapLoopM swapLoopV
  have row : ∀ (q p : Nat) (B : Mat K) (k : Nat) (r c : Nat),
      forN k (fun j result => Mat.set (Mat.set result q j (result p j)) p j (result q j)) B r c =
        if c < k then B (sw q p r) c else B r c := by
    intro q p B k
    induction k with
    | zero => intro r c; rw [if_neg (by omega)]; rfl
    | succ k ih =>
      intro r c
      rw [forN_succ]
      set D := forN k (fun j result => Mat.set (Mat.set result q j (result p j)) p j (result q j)) B
      by_cases hc : c = k
      · subst hc
        have hD : ∀ r, D r c = B r c := by intro r; rw [ih, if_neg (by omega)]
        rw [if_pos (by omega), ← hD (sw q p r), ← swapV_eq (fun r => D r c) q p r]
        unfold Mat.set Vec.set
        by_cases h1 : r = p
        · rw [if_pos ⟨h1, rfl⟩, if_pos h1]
        · rw [if_neg (fun h => h1 h.1), if_neg h1]
          by_cases h2 : r = q
          · rw [if_pos ⟨h2, rfl⟩, if_pos h2]
          · rw [if_neg (fun h => h2 h.1), if_neg h2]
      · rw [Mat.set_ne _ _ _ _ _ _ (fun h => hc h.2), Mat.set_ne _ _ _ _ _ _ (fun h => hc h.2), ih]
        by_cases h2 : c < k
        · rw [if_pos h2, if_pos (by omega)]
        · rw [if_neg h2, if_neg (by omega)]
  induction n generalizing A with
  | zero => rfl
  | succ n ih =>
    rw [forDown_succ, forDown_succ, ih]
    refine congrArg (fun z : Vec K => (forDown n (fun i (result : Vec K) =>
      Vec.set (Vec.set result i (result (ipiv i - 1))) (ipiv i - 1) (result i)) z : Vec K) i) ?_
    funext r
    refine Eq.trans ?_ (swapV_eq (fun r => A r j) n (ipiv n - 1) r).symm
    have := row n (ipiv n - 1) A cols r j
    rw [if_pos hj] at this
    exact this

/-! ### triangular parts -/

theorem det_upperPart (n : Nat) (A : Mat K) : (upperPart n A).det = ∏ i : Fin n, A i i := by
  rw [Matrix.det_of_isUpperTriangular]
  · refine Finset.prod_congr rfl fun i _ => ?_
    simp [upperPart]
  · intro i j hij
    have : ¬ (i ≤ j) := not_le.2 hij
    simp [upperPart, this]

theorem det_unitLowerPart (n : Nat) (A : Mat K) : (unitLowerPart n A).det = 1 := by
  rw [Matrix.det_of_isLowerTriangular]
  · refine Finset.prod_eq_one fun i _ => ?_
    simp [unitLowerPart]
  · intro i j hij
    have h : i < j := hij
    simp [unitLowerPart, not_lt.2 h.le, h.ne]

theorem det_interchange (n i j : Nat) (hi : i < n) (hj : j < n) (A : Mat K) :
    (asM n n (interchange i j A)).det = (if i = j then 1 else -1) * (asM n n A).det := by
  by_cases e : i = j
  · subst e
    rw [if_pos rfl, one_mul]
    congr 1; ext r c
    rw [asM_apply, asM_apply, interchange_eq, sw]
    by_cases h : (r:Nat) = i
    · rw [if_pos h, h]
    · rw [if_neg h, if_neg h]
  · rw [if_neg e]
    have hM : asM n n (interchange i j A) =
        (asM n n A).submatrix (Equiv.swap (⟨i, hi⟩ : Fin n) ⟨j, hj⟩) id := by
      ext r c
      rw [asM_apply, interchange_eq, Matrix.submatrix_apply, asM_apply, Equiv.swap_apply_def, sw]
      by_cases h1 : r = ⟨i, hi⟩
      · subst h1; simp
      · rw [if_neg (fun h => h1 (Fin.ext h)), if_neg h1]
        by_cases h2 : r = ⟨j, hj⟩
        · subst h2; simp
        · rw [if_neg (fun h => h2 (Fin.ext h)), if_neg h2]; rfl
    rw [hM, Matrix.det_permute, Equiv.Perm.sign_swap (fun h => e (Fin.mk.inj h))]
    simp

theorem det_interchanges (n : Nat) (ipiv : Nat → Nat) (h : ∀ i, i < n → i + 1 ≤ ipiv i ∧ ipiv i ≤ n)
    (A : Mat K) (s : St K) (hs : s.ipiv = ipiv) :
    (asM n n (interchanges n ipiv A)).det = getSign n s * (asM n n A).det := by
  have key : ∀ k, k ≤ n → (asM n n (interchanges k ipiv A)).det =
      forN k (fun i result => if s.ipiv i > i + 1 then -result else result) (1:K) * (asM n n A).det := by
    intro k hk
    induction k with
    | zero => simp [interchanges]
    | succ k ih =>
      have hb := h k (by omega)
      show (asM n n (interchange k (ipiv k - 1) (interchanges k ipiv A))).det = _
      rw [det_interchange n k _ (by omega) (by omega), ih (by omega), forN_succ, hs]
      by_cases hp : ipiv k > k + 1
      · rw [if_pos hp, if_neg (by omega)]; ring
      · rw [if_neg hp, if_pos (by omega), one_mul]
  rw [key n le_rfl, getSign]
  cases n with
  | zero => rfl
  | succ n =>
    rw [forN_succ, hs, if_neg (by have := h n (by omega); omega)]
    rfl

theorem determinant_eq (n : Nat) (s : St K) :
    determinant n s = getSign n s * ∏ i : Fin n, cview n s.lu i i := by
  unfold determinant
  rw [Fin.prod_univ_eq_prod_range (fun i => cview n s.lu i i) n]
  have : ∀ k, forN k (fun i result => result * cview n s.lu i i) (getSign n s) =
      getSign n s * ∏ i ∈ range k, cview n s.lu i i := by
    intro k
    induction k with
    | zero => simp
    | succ k ih => rw [forN_succ, ih, prod_range_succ, mul_assoc]
  exact this n

theorem sum_range_fin' (n : Nat) (f : Nat → K) : ∑ i ∈ range n, f i = ∑ i : Fin n, f i :=
  (Fin.sum_univ_eq_sum_range f n).symm

/-- core of `backsub`: `L U = interchanges F`, `X U = Bᵀ`, `Y L = X` give `Fᵀ (swaps Yᵀ) = B`. -/
theorem solve_core (n : Nat) (F : Mat K) (ipiv : Nat → Nat) (h : ∀ i, i < n → i + 1 ≤ ipiv i ∧ ipiv i ≤ n)
    (L U : Matrix (Fin n) (Fin n) K) (hF : asM n n (interchanges n ipiv F) = L * U)
    (y : Vec K) (b : Fin n → K) (hy : Matrix.vecMul (Matrix.vecMul (asV n y) L) U = b) :
    (asM n n F).transpose.mulVec (asV n (swapLoopV n ipiv y)) = b := by
  rw [← hy, Matrix.vecMul_vecMul, ← hF]
  funext r
  have := swapLoopV_spec n ipiv h F y r
  rw [sum_range_fin', sum_range_fin'] at this
  simp only [Matrix.mulVec, Matrix.vecMul, dotProduct, Matrix.transpose_apply, asM_apply, asV_apply]
  rw [this]
  exact Finset.sum_congr rfl fun c _ => mul_comm _ _

/-! ### the contracts can be met -/

theorem forN_front {σ : Type _} (n : Nat) (f : Nat → σ → σ) (s : σ) :
    forN (n+1) f s = forN n (fun i => f (i+1)) (f 0 s) := by
  induction n with
  | zero => rfl
  | succ n ih => rw [forN_succ, ih]; rfl

/-- the row selected at position `r` by a sequence of interchanges -/
theorem interchanges_perm (n : Nat) (ipiv : Nat → Nat) (h : ∀ i, i < n → i + 1 ≤ ipiv i ∧ ipiv i ≤ n) :
    ∃ ρ : Nat → Nat, (∀ r, r < n → ρ r < n) ∧
      ∀ (A : Mat K) r c, interchanges n ipiv A r c = A (ρ r) c := by
  have key : ∀ k, k ≤ n → ∃ ρ : Nat → Nat, (∀ r, r < n → ρ r < n) ∧
      ∀ (A : Mat K) r c, interchanges k ipiv A r c = A (ρ r) c := by
    intro k hk
    induction k with
    | zero => exact ⟨id, fun r hr => hr, fun A r c => rfl⟩
    | succ k ih =>
      obtain ⟨ρ, h1, h2⟩ := ih (by omega)
      have hb := h k (by omega)
      refine ⟨fun r => ρ (sw k (ipiv k - 1) r), fun r hr => h1 _ (sw_lt (by omega) (by omega) hr), ?_⟩
      intro A r c
      show interchange k (ipiv k - 1) (interchanges k ipiv A) r c = _
      rw [interchange_eq, h2]
  exact key n le_rfl

theorem interchanges_shift (n : Nat) (ip : Nat → Nat) (h : ∀ i, i < n → i + 1 ≤ ip i) (G : Mat K) (ρ : Nat → Nat)
    (hρ : ∀ (A : Mat K) r c, interchanges n ip A r c = A (ρ r) c) (r c : Nat) :
    forN n (fun i A => interchange (i+1) (ip i + 1 - 1) A) G r c = if r = 0 then G 0 c else G (ρ (r-1) + 1) c := by
  have key : ∀ k, k ≤ n → ∀ r c, forN k (fun i A => interchange (i+1) (ip i + 1 - 1) A) G r c =
      if r = 0 then G 0 c else interchanges k ip (fun r c => G (r+1) c) (r-1) c := by
    intro k hk
    induction k with
    | zero =>
      intro r c
      by_cases hr : r = 0
      · subst hr; rfl
      · rw [if_neg hr]; show G r c = G (r - 1 + 1) c; congr 1; omega
    | succ k ih =>
      intro r c
      have hb := h k (by omega)
      rw [forN_succ, interchange_eq]
      show _ = if r = 0 then G 0 c else
        interchange k (ip k - 1) (interchanges k ip (fun r c => G (r+1) c)) (r-1) c
      rw [interchange_eq, ih (by omega)]
      by_cases hr : r = 0
      · subst hr
        have : sw (k+1) (ip k + 1 - 1) 0 = 0 := by unfold sw; rw [if_neg (by omega), if_neg (by omega)]
        rw [if_pos this, if_pos rfl]
      · have e : sw (k+1) (ip k + 1 - 1) r - 1 = sw k (ip k - 1) (r - 1) ∧ sw (k+1) (ip k + 1 - 1) r ≠ 0 := by
          unfold sw
          split_ifs <;> omega
        rw [if_neg e.2, if_neg hr, e.1]
  rw [key n le_rfl, hρ]

theorem plu_exists (n : Nat) (F : Mat K) : ∃ (lu : Mat K) (ip : Nat → Nat),
    (∀ i, i < n → i + 1 ≤ ip i ∧ ip i ≤ n) ∧
    asM n n (interchanges n ip F) = unitLowerPart n lu * upperPart n lu := by
  classical
  induction n generalizing F with
  | zero => exact ⟨F, fun _ => 0, by omega, by ext i; exact i.elim0⟩
  | succ n ih =>
    -- a pivot row: nonzero if possible
    obtain ⟨p, hp, hpiv⟩ : ∃ p, p ≤ n ∧ ((∃ q, q ≤ n ∧ F q 0 ≠ 0) → F p 0 ≠ 0) := by
      by_cases hq : ∃ q, q ≤ n ∧ F q 0 ≠ 0
      · obtain ⟨q, h1, h2⟩ := hq; exact ⟨q, h1, fun _ => h2⟩
      · exact ⟨0, by omega, fun h => absurd h hq⟩
    set G := interchange 0 p F with hG
    have hG0 : G 0 0 = 0 → ∀ r, r ≤ n → G r 0 = 0 := by
      intro h0 r hr
      have hF : F p 0 = 0 := by simpa [hG, interchange] using h0
      have hall : ∀ q, q ≤ n → F q 0 = 0 := by
        intro q hq; by_contra hne; exact hpiv ⟨q, hq, hne⟩ hF
      rw [hG, interchange_eq]
      have := sw_lt (n := n+1) (i := 0) (j := p) (r := r) (by omega) (by omega) (by omega)
      exact hall _ (by omega)
    let mult : Nat → K := fun r => if G 0 0 = 0 then 0 else G (r+1) 0 / G 0 0
    have hmult : ∀ r, r < n → mult r * G 0 0 = G (r+1) 0 := by
      intro r hr
      by_cases h0 : G 0 0 = 0
      · rw [hG0 h0 (r+1) (by omega), h0, mul_zero]
      · simp only [mult, if_neg h0]; exact div_mul_cancel₀ _ h0
    obtain ⟨lu', ip', h1, h2⟩ := ih (fun r c => G (r+1) (c+1) - mult r * G 0 (c+1))
    obtain ⟨ρ, hρ1, hρ2⟩ := interchanges_perm (K := K) n ip' h1
    let lu : Mat K := fun r c => if r = 0 then G 0 c else if c = 0 then mult (ρ (r-1)) else lu' (r-1) (c-1)
    let ip : Nat → Nat := fun i => if i = 0 then p + 1 else ip' (i-1) + 1
    refine ⟨lu, ip, ?_, ?_⟩
    · intro i hi
      simp only [ip]
      by_cases h0 : i = 0
      · rw [if_pos h0]; omega
      · rw [if_neg h0]; have := h1 (i-1) (by omega); omega
    · have hperm : ∀ r c, interchanges (n+1) ip F r c = if r = 0 then G 0 c else G (ρ (r-1) + 1) c := by
        intro r c
        unfold interchanges
        rw [forN_front]
        have e0 : interchange 0 (ip 0 - 1) F = G := rfl
        rw [e0]
        exact interchanges_shift n ip' (fun i hi => (h1 i hi).1) G ρ hρ2 r c
      have hS : ∀ (r c : Fin n), G (ρ r + 1) (c + 1) - mult (ρ r) * G 0 (c+1) =
          (unitLowerPart n lu' * upperPart n lu') r c := by
        intro r c
        rw [← h2, asM_apply, hρ2]
      ext r c
      rw [asM_apply, hperm, Matrix.mul_apply, Fin.sum_univ_succ]
      refine Fin.cases ?_ (fun r => ?_) r
      · -- row 0
        have hz : ∀ k : Fin n, unitLowerPart (n+1) lu 0 k.succ * upperPart (n+1) lu k.succ c = 0 := by
          intro k
          have : unitLowerPart (n+1) lu 0 k.succ = 0 := by
            simp [unitLowerPart, (Fin.succ_ne_zero k).symm]
          rw [this, zero_mul]
        rw [Finset.sum_eq_zero (fun k _ => hz k), add_zero]
        simp [unitLowerPart, upperPart, lu]
      · have hL0 : unitLowerPart (n+1) lu r.succ 0 = mult (ρ r) := by
          simp [unitLowerPart, lu, Fin.succ_pos]
        have hLs : ∀ k : Fin n, unitLowerPart (n+1) lu r.succ k.succ = unitLowerPart n lu' r k := by
          intro k
          simp [unitLowerPart, lu, Fin.succ_lt_succ_iff, Fin.succ_inj]
        rw [hL0]
        simp only [hLs]
        refine Fin.cases ?_ (fun c => ?_) c
        · have hU : ∀ k : Fin n, unitLowerPart n lu' r k * upperPart (n+1) lu k.succ 0 = 0 := by
            intro k
            have : upperPart (n+1) lu k.succ 0 = 0 := by simp [upperPart, Fin.succ_ne_zero]
            rw [this, mul_zero]
          rw [Finset.sum_eq_zero (fun k _ => hU k), add_zero]
          have hU0 : upperPart (n+1) lu 0 0 = G 0 0 := by simp [upperPart, lu]
          rw [hU0, hmult _ (hρ1 r r.2)]
          simp
        · have hUs : ∀ k : Fin n, upperPart (n+1) lu k.succ c.succ = upperPart n lu' k c := by
            intro k
            simp [upperPart, lu, Fin.succ_le_succ_iff]
          have hU0 : upperPart (n+1) lu 0 c.succ = G 0 (c+1) := by simp [upperPart, lu]
          simp only [hUs, hU0]
          have := hS r c
          rw [Matrix.mul_apply] at this
          rw [← this]
          simp

/-- a buffer holding a given matrix column-major with leading dimension `ld` -/
def fpack (ld : Nat) (m : Mat K) : Buf K := fun k => m (k % ld) (k / ld)

theorem fview_fpack (ld : Nat) (m : Mat K) (r c : Nat) (hr : r < ld) : fview ld (fpack ld m) r c = m r c := by
  have h0 : 0 < ld := by omega
  show m ((c * ld + r) % ld) ((c * ld + r) / ld) = m r c
  have h1 : (c * ld + r) / ld = c := by
    rw [Nat.mul_comm, Nat.mul_add_div h0, Nat.div_eq_of_lt hr, Nat.add_zero]
  have h2 : (c * ld + r) % ld = r := by
    rw [Nat.mul_comm, Nat.mul_add_mod, Nat.mod_eq_of_lt hr]
  rw [h1, h2]

/-- any mathematical matrix can be stored -/
def ofM {r c : Nat} (A : Matrix (Fin r) (Fin c) K) : Mat K :=
  fun i j => if h : i < r ∧ j < c then A ⟨i, h.1⟩ ⟨j, h.2⟩ else 0

theorem asM_ofM {r c : Nat} (A : Matrix (Fin r) (Fin c) K) : asM r c (ofM A) = A := by
  ext i j; simp [ofM]

theorem asM_fpack (M N ldb : Nat) (h : M ≤ ldb) (X : Matrix (Fin M) (Fin N) K) :
    asM M N (fview ldb (fpack ldb (ofM X))) = X := by
  rw [← asM_ofM X]
  ext i j
  rw [asM_apply, asM_apply, fview_fpack _ _ _ _ (by omega), asM_ofM]

theorem lapackOK_exists : ∃ lp : Lapack K, LapackOK lp := by
  classical
  have hg : ∀ (n : Nat) (A : Buf K), ∃ r : Buf K × (Nat → Nat), GetrfOK n A r.1 r.2 := by
    intro n A
    obtain ⟨lu, ip, h1, h2⟩ := plu_exists n (fview n A)
    refine ⟨(fpack n lu, ip), h1, ?_⟩
    rw [h2]
    have hu : upperPart n (fview n (fpack n lu)) = upperPart n lu := by
      ext i j
      simp only [upperPart, Matrix.of_apply]
      rw [fview_fpack _ _ _ _ i.2]
    have hl : unitLowerPart n (fview n (fpack n lu)) = unitLowerPart n lu := by
      ext i j
      simp only [unitLowerPart, Matrix.of_apply]
      rw [fview_fpack _ _ _ _ i.2]
    rw [hu, hl]
  choose g hg using hg
  refine ⟨{ getrf := fun M _ A _ => g M A
            trsm := fun _ uplo _ _ M N _ A lda B ldb =>
              if uplo = 'U' then fpack ldb (ofM (asM M N (fview ldb B) * (upperPart N (fview lda A))⁻¹))
              else fpack ldb (ofM (asM M N (fview ldb B) * (unitLowerPart N (fview lda A))⁻¹))
            getri := fun n A _ ip => fpack n (ofM
              (if h : ∃ B : Buf K, g n B = (A, ip) then (asM n n (fview n h.choose))⁻¹ else 0)) }, ?_, ?_, ?_, ?_⟩
  · exact fun n A => hg n A
  · intro M N A B lda ldb _ hM hd
    simp only [if_true]
    rw [asM_fpack M N ldb hM, Matrix.mul_assoc, Matrix.nonsing_inv_mul, Matrix.mul_one]
    rw [det_upperPart, isUnit_iff_ne_zero, Finset.prod_ne_zero_iff]
    exact fun i _ => hd i i.2
  · intro M N A B lda ldb _ hM
    simp only [if_neg (show ¬ ('L' = 'U') by decide)]
    rw [asM_fpack M N ldb hM, Matrix.mul_assoc, Matrix.nonsing_inv_mul, Matrix.mul_one]
    rw [det_unitLowerPart]; exact isUnit_one
  · intro n A hd
    have hex : ∃ B : Buf K, g n B = ((g n A).1, (g n A).2) := ⟨A, rfl⟩
    simp only [dif_pos hex]
    rw [asM_fpack n n n le_rfl]
    -- both factored buffers have the same interchanged product, hence are equal matrices
    set B := hex.choose
    have hB : g n B = ((g n A).1, (g n A).2) := hex.choose_spec
    have h1 := hg n A
    have h2 := hg n B
    rw [hB] at h2
    have heq : asM n n (interchanges n (g n A).2 (fview n A)) = asM n n (interchanges n (g n A).2 (fview n B)) := by
      rw [h1.2, h2.2]
    have hdet : ∀ C : Mat K, asM n n (interchanges n (g n A).2 C) =
        unitLowerPart n (fview n (g n A).1) * upperPart n (fview n (g n A).1) → (asM n n C).det ≠ 0 := by
      intro C hC h0
      have := det_interchanges n (g n A).2 h1.1 C ⟨(g n A).1, (g n A).2⟩ rfl
      rw [hC, h0, mul_zero, Matrix.det_mul, det_unitLowerPart, one_mul, det_upperPart] at this
      refine (Finset.prod_ne_zero_iff.2 (fun (i : Fin n) _ => ?_)) this
      exact hd i i.2
    have hAB : asM n n (fview n A) = asM n n (fview n B) := by
      -- solve with every unit vector through the swap loop
      have hs : ∀ (y : Vec K), (asM n n (fview n A)).transpose.mulVec (asV n (swapLoopV n (g n A).2 y)) =
          (asM n n (fview n B)).transpose.mulVec (asV n (swapLoopV n (g n A).2 y)) := by
        intro y
        rw [solve_core n (fview n A) (g n A).2 h1.1 _ _ h1.2 y _ rfl,
          solve_core n (fview n B) (g n A).2 h1.1 _ _ h2.2 y _ rfl]
      have hsurj : ∀ x : Fin n → K, ∃ y : Vec K, asV n (swapLoopV n (g n A).2 y) = x := by
        intro x
        let b := (asM n n (fview n A)).transpose.mulVec x
        let y0 : Fin n → K := Matrix.vecMul (Matrix.vecMul b (upperPart n (fview n (g n A).1))⁻¹)
          (unitLowerPart n (fview n (g n A).1))⁻¹
        let y : Vec K := fun i => if h : i < n then y0 ⟨i, h⟩ else 0
        have hy : asV n y = y0 := by funext i; simp [y]
        refine ⟨y, ?_⟩
        have e := solve_core n (fview n A) (g n A).2 h1.1 _ _ h1.2 y b (by
          rw [hy]
          simp only [y0]
          rw [Matrix.vecMul_vecMul _ (unitLowerPart _ _)⁻¹, Matrix.nonsing_inv_mul, Matrix.vecMul_one,
            Matrix.vecMul_vecMul, Matrix.nonsing_inv_mul, Matrix.vecMul_one]
          · rw [det_upperPart, isUnit_iff_ne_zero, Finset.prod_ne_zero_iff]
            exact fun i _ => hd i i.2
          · rw [det_unitLowerPart]; exact isUnit_one)
        have hu : IsUnit (asM n n (fview n A)).transpose.det := by
          rw [Matrix.det_transpose]; exact isUnit_iff_ne_zero.2 (hdet _ h1.2)
        have := congrArg ((asM n n (fview n A)).transpose⁻¹.mulVec) e
        simpa [b, Matrix.mulVec_mulVec, Matrix.nonsing_inv_mul _ hu] using this
      have ht : (asM n n (fview n A)).transpose = (asM n n (fview n B)).transpose := by
        ext i j
        obtain ⟨y, hy⟩ := hsurj (Pi.single j 1)
        have := congrFun (hs y) i
        rw [hy] at this
        simpa using this
      exact Matrix.transpose_injective ht
    rw [hAB, Matrix.nonsing_inv_mul]
    rw [← hAB]
    exact isUnit_iff_ne_zero.2 (hdet _ h1.2)

end TooN.LU
