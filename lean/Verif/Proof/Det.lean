import Verif.Proof.GaussElim
import Mathlib.LinearAlgebra.Matrix.Determinant.Basic
/-! Proof of `determinant_gaussian_elimination`. -/
set_option linter.unusedSectionVars false
namespace TooN.Elim
open Finset
variable {K : Type _} [Field K] [LinearOrder K] [IsStrictOrderedRing K]

omit [LinearOrder K] [IsStrictOrderedRing K] in
/-- one elimination step on a square block -/
theorem det_elim (k : Nat) (B : Mat K) (hp : B 0 0 ≠ 0) :
    (asM (k+1) (k+1) B).det = B 0 0 *
      (asM k k (fun r c => B (r+1) (c+1) - B (r+1) 0 / B 0 0 * B 0 (c+1))).det := by
  have h1 : (asM (k+1) (k+1) B).det = (asM (k+1) (k+1) (fun r c => if r = 0 then B 0 c else
      B r c - B r 0 / B 0 0 * B 0 c)).det := by
    refine Matrix.det_eq_of_forall_row_eq_smul_add_const
      (fun i : Fin (k+1) => if (i : Nat) = 0 then 0 else B i 0 / B 0 0) 0 (by simp) ?_
    intro i j
    simp only [asM_apply, Fin.val_zero, if_true]
    by_cases h : (i : Nat) = 0
    · rw [if_pos h, if_pos h, h]; ring
    · rw [if_neg h, if_neg h]; ring
  rw [h1, Matrix.det_succ_column_zero, Fin.sum_univ_succ]
  have h2 : ∑ i : Fin k, (-1 : K) ^ ((i.succ : Fin (k+1)) : ℕ) *
      asM (k+1) (k+1) (fun r c => if r = 0 then B 0 c else B r c - B r 0 / B 0 0 * B 0 c) i.succ 0 *
      ((asM (k+1) (k+1) (fun r c => if r = 0 then B 0 c else B r c - B r 0 / B 0 0 * B 0 c)).submatrix
        i.succ.succAbove Fin.succ).det = 0 := by
    apply sum_eq_zero
    intro i _
    have : asM (k+1) (k+1) (fun r c => if r = 0 then B 0 c else B r c - B r 0 / B 0 0 * B 0 c) i.succ 0 = 0 := by
      simp only [asM_apply, Fin.val_succ, Fin.val_zero]
      rw [if_neg (by omega)]
      field_simp; ring
    rw [this]; ring
  have h3 : (asM (k+1) (k+1) (fun r c => if r = 0 then B 0 c else B r c - B r 0 / B 0 0 * B 0 c)).submatrix
        (Fin.succAbove 0) Fin.succ = asM k k (fun r c => B (r+1) (c+1) - B (r+1) 0 / B 0 0 * B 0 (c+1)) := by
    ext i j
    simp
  rw [h2, h3]
  simp

omit [LinearOrder K] [IsStrictOrderedRing K] in
/-- swapping rows `0` and `q ≠ 0` of a square block negates the determinant -/
theorem det_swap (k : Nat) (B B' : Mat K) (q : Nat) (hq : q < k) (hq0 : q ≠ 0)
    (h : ∀ r c, r < k → c < k → B' r c = if r = q then B 0 c else if r = 0 then B q c else B r c) :
    (asM k k B').det = - (asM k k B).det := by
  have e : asM k k B' = (asM k k B).submatrix (Equiv.swap (⟨0, by omega⟩ : Fin k) ⟨q, hq⟩) id := by
    ext i j
    simp only [asM_apply, Matrix.submatrix_apply, id]
    rw [h i j i.2 j.2, Equiv.swap_apply_def]
    by_cases h1 : (i : Nat) = q
    · have : i = ⟨q, hq⟩ := Fin.ext h1
      rw [if_pos h1, if_neg (by rw [this]; intro hh; exact hq0 (Fin.mk.inj hh)), if_pos this]
    · rw [if_neg h1]
      by_cases h2 : (i : Nat) = 0
      · rw [if_pos h2, if_pos (Fin.ext h2)]
      · rw [if_neg h2, if_neg (fun hh => h2 (congrArg Fin.val hh)), if_neg (fun hh => h1 (congrArg Fin.val hh))]
  rw [e, Matrix.det_permute, Equiv.Perm.sign_swap]
  · simp
  · intro hh; exact hq0 (Fin.mk.inj hh).symm

/-- the trailing block starting at `(i,i)` -/
def tail (i : Nat) (A : Mat K) : Mat K := fun r c => A (i + r) (i + c)

theorem detInner (n i : Nat) (p : K) (A : Mat K) (r c : Nat) :
    forRange (i+1) n (fun u A =>
      let factor := A u i / p
      forRange (i+1) n (fun j A => Mat.set A u j (A u j - factor * A i j)) A) A r c =
    if i < r ∧ r < n ∧ i < c ∧ c < n then A r c - A r i / p * A i c else A r c := by
  by_cases hle : i + 1 ≤ n
  · have := forRange_inv (fun u (B : Mat K) => ∀ r c, B r c =
      if i < r ∧ r < u ∧ i < c ∧ c < n then A r c - A r i / p * A i c else A r c) (i+1) n hle
      (fun u A =>
      let factor := A u i / p
      forRange (i+1) n (fun j A => Mat.set A u j (A u j - factor * A i j)) A) A
      (by intro r c; rw [if_neg (by omega)])
      (by
        intro u B h1 h2 hB r c
        simp only
        rw [forRange_row (i+1) n u (fun j f => f u - B u i / p * f i)]
        by_cases e : r = u ∧ i + 1 ≤ c ∧ c < n
        · obtain ⟨rfl, e2, e3⟩ := e
          rw [if_pos ⟨rfl, e2, e3⟩, if_pos (by omega)]
          simp only
          rw [hB r c, if_neg (by omega), hB r i, if_neg (by omega), hB i c,
            if_neg (by omega)]
        · rw [if_neg e, hB]
          by_cases e2 : i < r ∧ r < u ∧ i < c ∧ c < n
          · rw [if_pos e2, if_pos (by omega)]
          · rw [if_neg e2, if_neg (by omega)])
    exact this r c
  · rw [forRange_empty _ _ (by omega), if_neg (by omega)]

/-- loop invariant of `determinant_gaussian_elimination` -/
def DetInv (n : Nat) (d : K) (i : Nat) : DetState K → Prop
  | .run A det => det ≠ 0 ∧ det * (asM (n-i) (n-i) (tail i A)).det = d
  | .ret r => r = d
  | .divZero => False

theorem detStep_inv (n : Nat) (d : K) (i : Nat) (hi : i < n) (s : DetState K) (h : DetInv n d i s) :
    DetInv n d (i+1) (detStep n i s) := by
  match s with
  | .ret r => exact h
  | .divZero => exact h
  | .run A det =>
    obtain ⟨hd, hdet⟩ := h
    obtain ⟨p1, p2, p3⟩ := pivotRow_spec n i hi A
    unfold detStep
    simp only
    set p := pivotRow n i A with hpdef
    let A1 := if p ≠ i then swapRows i n i p A else A
    have hA1 : ∀ r c, A1 r c = if i ≤ c ∧ c < n then (if r = p then A i c else if r = i then A p c else A r c) else A r c := by
      intro r c
      simp only [A1]
      by_cases h : p ≠ i
      · rw [if_pos h, swapRows_apply]
      · rw [if_neg h]
        have h : p = i := not_not.1 h
        rw [h]
        split_ifs with h1 h2 <;> first | rfl | rw [h2]
    have hpiv : A1 i i = A p i := by
      rw [hA1, if_pos ⟨le_refl _, hi⟩]
      by_cases e : i = p
      · rw [if_pos e, ← e]
      · rw [if_neg e, if_pos rfl]
    -- the swap
    have hsw : (if p ≠ i then det * (-1) else det) * (asM (n-i) (n-i) (tail i A1)).det = d := by
      by_cases e : p = i
      · rw [if_neg (by simpa using e), ← hdet]
        congr 2
        rw [asM_eq_iff]
        intro r c hr hc
        unfold tail
        rw [hA1, if_pos (by omega), e]
        split_ifs with h1 <;> first | rfl | (rw [h1])
      · rw [if_pos e, ← hdet, det_swap (n-i) (tail i A) (tail i A1) (p - i) (by omega) (by omega)]
        · ring
        · intro r c hr hc
          unfold tail
          rw [hA1, if_pos (by omega)]
          have e1 : i + (p - i) = p := by omega
          by_cases h1 : r = p - i
          · rw [if_pos h1, if_pos (by omega), Nat.add_zero]
          · rw [if_neg h1, if_neg (by omega)]
            by_cases h2 : r = 0
            · rw [if_pos h2, if_pos (by omega), e1]
            · rw [if_neg h2, if_neg (by omega)]
    have hd1 : (if p ≠ i then det * (-1) else det) ≠ 0 := by
      split
      · exact mul_ne_zero hd (by simp)
      · exact hd
    have hA1' : (if p ≠ i then swapRows i n i p A else A) = A1 := rfl
    rw [hA1']
    by_cases hz : (if p ≠ i then det * (-1) else det) * A1 i i = 0
    · rw [if_pos hz]
      show (0 : K) = d
      have hp0 : A p i = 0 := by
        rw [← hpiv]; exact (mul_eq_zero.1 hz).resolve_left hd1
      have hcol : ∀ r, i ≤ r → r < n → A r i = 0 := by
        intro r h1 h2
        have := p3 r h1 h2
        rw [hp0, abs_zero] at this
        exact abs_eq_zero.1 (le_antisymm this (abs_nonneg _))
      rw [← hdet, Matrix.det_eq_zero_of_column_eq_zero (⟨0, by omega⟩ : Fin (n-i)), mul_zero]
      intro r
      exact hcol (i + r) (by omega) (by have := r.2; omega)
    · rw [if_neg hz]
      have hpne : A p i ≠ 0 := by
        intro h0; apply hz; rw [hpiv, h0, mul_zero]
      rw [if_neg (by tauto)]
      refine ⟨hz, ?_⟩
      rw [← hsw]
      have hk : n - i = (n - (i+1)) + 1 := by omega
      have hbb : (asM (n-i) (n-i) (tail i A1)).det = A1 i i *
          (asM (n-(i+1)) (n-(i+1)) (fun r c => tail i A1 (r+1) (c+1) -
            tail i A1 (r+1) 0 / tail i A1 0 0 * tail i A1 0 (c+1))).det := by
        rw [hk]
        exact det_elim (n-(i+1)) (tail i A1) (by show A1 i i ≠ 0; rw [hpiv]; exact hpne)
      rw [hbb, ← mul_assoc]
      congr 2
      rw [asM_eq_iff]
      intro r c hr hc
      have e1 : ∀ k, i + 1 + k = i + (k + 1) := fun k => by omega
      unfold tail
      rw [detInner, if_pos (by omega)]
      simp only [e1, Nat.add_zero, hpiv]

theorem detGauss_correct (n : Nat) (A : Mat K) : detGauss n A = some (asM n n A).det := by
  have h := forN_inv (DetInv n (asM n n A).det) n (detStep n) (.run A 1)
    ⟨one_ne_zero, by
      rw [one_mul]
      congr 1
      have : tail 0 A = A := by funext r c; simp [tail]
      rw [this]; rfl⟩
    (fun i t hi ht => detStep_inv n _ i hi t ht)
  unfold detGauss
  cases hq : forN n (detStep n) (.run A 1) with
  | run B det =>
    rw [hq] at h
    obtain ⟨-, h2⟩ := h
    rw [← h2]
    have : n - n = 0 := by omega
    rw [this]; simp
  | ret r => rw [hq] at h; rw [← h]
  | divZero => rw [hq] at h; exact h.elim

end TooN.Elim
