import Verif.Proof.QR
/-!
# C27: QR

The class documents itself for `rows ≤ columns` only.
-/
set_option linter.unusedSectionVars false
namespace TooN.QR
open Finset

/-- **C27** whenever no reflection divides by zero, `get_Q()` is orthogonal, `get_R()` is upper triangular and
`Q * R` is the input. -/
theorem c27_factorisation (R C : Nat) (hRC : R ≤ C) (A : Mat ℝ) (s : St) (h : compute R C A = some s) :
    (asM R R s.Q).transpose * asM R R s.Q = 1 ∧ asM R R s.Q * (asM R R s.Q).transpose = 1 ∧
    (∀ i j, j < i → i < R → s.m i j = 0) ∧ asM R R s.Q * asM R C s.m = asM R C A := by
  unfold compute at h
  rw [Nat.min_eq_left hRC] at h
  dsimp only at h
  cases hq : forNM (R - 1) (step C R) ⟨A, fun r c => if r = c then 1 else 0⟩ with
  | none => rw [hq] at h; exact absurd h (by simp)
  | some t =>
    rw [hq, Option.bind_some] at h
    injection h with h
    have inv := forNM_inv (Inv R C A) (R - 1) (step C R) _ t (by
        have e : asM R R (fun r c => if r = c then (1:ℝ) else 0) = 1 := by
          ext i j
          rw [asM_apply, Matrix.one_apply]
          by_cases e : i = j
          · rw [if_pos e, if_pos (congrArg _ e)]
          · rw [if_neg e, if_neg (fun h => e (Fin.ext h))]
        refine ⟨?_, ?_, fun r c hc => by omega⟩
        · rw [e, Matrix.transpose_one, Matrix.one_mul]
        · rw [e, Matrix.one_mul])
      (fun i a b hi ha hs => step_inv R C hRC A i hi a b ha hs) hq
    obtain ⟨h1, h2, h3⟩ := inv
    have hT : asM R R s.Q = (asM R R t.Q).transpose := by
      rw [← h]
      ext i j
      rw [asM_apply, Matrix.transpose_apply, asM_apply]
      show transposeLoop R t.Q i j = _
      rw [transposeLoop_apply, if_pos ⟨i.2, j.2⟩]
    have h1' : asM R R t.Q * (asM R R t.Q).transpose = 1 := mul_eq_one_comm.1 h1
    have hm : s.m = t.m := by rw [← h]
    refine ⟨?_, ?_, ?_, ?_⟩
    · rw [hT, Matrix.transpose_transpose]; exact h1'
    · rw [hT, Matrix.transpose_transpose]; exact h1
    · intro i j hij hi
      rw [hm]; exact h3 i j (by omega) hij hi
    · rw [hT, hm, ← h2, ← Matrix.mul_assoc, h1, Matrix.one_mul]

/-- **C27** exactly when a reflection step divides by zero: the part of column `n` below the diagonal is
already zero. -/
theorem c27_step_fails_iff (C R n : Nat) (hn : n < R) (s : St) :
    step C R n s = none ↔ ∀ r, n < r → r < R → s.m r n = 0 := by
  unfold step
  dsimp only
  set x : Vec ℝ := fun i => s.m (n + i) n with hx
  set a := Real.sqrt (Ops.dot (R - n) x x) * (if s.m n n < 0 then (-1:ℝ) else 1) with ha
  rw [Mat.set_self]
  have hsz : R - n = (R - n - 1) + 1 := by omega
  have h0 : 0 ≤ Ops.dot (R - n) x x := by
    rw [dot_eq]; exact Finset.sum_nonneg fun i _ => mul_self_nonneg _
  have haa : a * a = Ops.dot (R - n) x x := by
    have := Real.mul_self_sqrt h0
    rw [ha]; split <;> linarith
  have hsum : Ops.dot (R - n) x x = (∑ i ∈ range (R - n - 1), x (i+1) * x (i+1)) + s.m n n * s.m n n := by
    rw [dot_eq]
    conv_lhs => rw [hsz]
    rw [sum_range_succ']; rfl
  have hrest : (∀ r, n < r → r < R → s.m r n = 0) ↔ ∑ i ∈ range (R - n - 1), x (i+1) * x (i+1) = 0 := by
    rw [Finset.sum_eq_zero_iff_of_nonneg (fun i _ => mul_self_nonneg _)]
    constructor
    · intro h i hi
      have := mem_range.1 hi
      rw [show x (i+1) = 0 from h (n + (i+1)) (by omega) (by omega), mul_zero]
    · intro h r h1 h2
      have := h (r - n - 1) (mem_range.2 (by omega))
      have e := mul_self_eq_zero.1 this
      have : n + (r - n - 1 + 1) = r := by omega
      rw [hx] at e
      simpa [this] using e
  have hH : -a * (s.m n n - a) = 0 ↔ ∑ i ∈ range (R - n - 1), x (i+1) * x (i+1) = 0 := by
    rw [hsum] at haa
    constructor
    · intro h
      rcases mul_eq_zero.1 h with h | h
      · have : a = 0 := by linarith
        rw [this, mul_zero] at haa
        have h1 := mul_self_nonneg (s.m n n)
        have h2 : 0 ≤ ∑ i ∈ range (R - n - 1), x (i+1) * x (i+1) :=
          Finset.sum_nonneg fun i _ => mul_self_nonneg _
        linarith
      · have : a = s.m n n := by linarith
        rw [this] at haa; linarith
    · intro h
      rw [h, zero_add] at haa
      have hs : Ops.dot (R - n) x x = s.m n n * s.m n n := by rw [hsum, h, zero_add]
      have : a = s.m n n := by
        rw [ha, hs, Real.sqrt_mul_self_eq_abs]
        split
        · rename_i hneg; rw [abs_of_neg hneg]; ring
        · rename_i hneg; rw [abs_of_nonneg (not_lt.1 hneg)]; ring
      rw [this, sub_self, mul_zero]
  rw [hrest, ← hH]
  split
  · rename_i h; exact ⟨fun _ => h, fun _ => rfl⟩
  · rename_i h; exact ⟨fun h' => absurd h' (by simp), fun h' => absurd h' h⟩

/-- **C27** every matrix whose first column is zero below the first entry (identity, diagonal, upper
triangular, ...) makes the code divide by zero. -/
theorem c27_reduced_first_column_fails (R C : Nat) (hR : 2 ≤ R) (hRC : R ≤ C) (A : Mat ℝ)
    (h : ∀ r, 0 < r → r < R → A r 0 = 0) : compute R C A = none := by
  have key : ∀ k, 1 ≤ k → forNM k (step C R) ⟨A, fun r c => if r = c then 1 else 0⟩ = none := by
    intro k hk
    induction k with
    | zero => omega
    | succ k ih =>
      rw [forNM_succ]
      by_cases hk0 : k = 0
      · subst hk0
        rw [forNM_zero, Option.bind_some]
        exact (c27_step_fails_iff C R 0 (by omega) _).2 h
      · rw [ih (by omega)]; rfl
  unfold compute
  rw [Nat.min_eq_left hRC]
  dsimp only
  rw [key (R - 1) (by omega)]; rfl

/-- **C27** the full claim (QR of every matrix with rows ≤ columns) is false: the identity. -/
theorem c27_full_claim_false : ∃ A : Mat ℝ, asM 2 2 A = 1 ∧ compute 2 2 A = none := by
  refine ⟨fun r c => if r = c then 1 else 0, ?_, c27_reduced_first_column_fails 2 2 le_rfl le_rfl _ ?_⟩
  · ext i j
    rw [asM_apply, Matrix.one_apply]
    by_cases e : i = j
    · rw [if_pos e, if_pos (congrArg _ e)]
    · rw [if_neg e, if_neg (fun h => e (Fin.ext h))]
  · intro r h1 _; rw [if_neg (by omega)]

/-- **C27** two-row matrices: the factorisation succeeds exactly when `A(1,0) ≠ 0`. -/
theorem c27_two_rows (C : Nat) (hC : 2 ≤ C) (A : Mat ℝ) : (compute 2 C A).isSome ↔ A 1 0 ≠ 0 := by
  constructor
  · intro h h0
    rw [c27_reduced_first_column_fails 2 C le_rfl hC A] at h
    · exact absurd h (by simp)
    · intro r h1 h2
      have : r = 1 := by omega
      rw [this]; exact h0
  · intro h
    have hs : step C 2 0 ⟨A, fun r c => if r = c then 1 else 0⟩ ≠ none := by
      rw [Ne, c27_step_fails_iff C 2 0 (by omega)]
      intro hall
      exact h (hall 1 (by omega) (by omega))
    unfold compute
    rw [Nat.min_eq_left hC]
    cases hq : step C 2 0 ⟨A, fun r c => if r = c then 1 else 0⟩ with
    | none => exact absurd hq hs
    | some t =>
      have : forNM (2 - 1) (step C 2) ⟨A, fun r c => if r = c then 1 else 0⟩ = some t := hq
      dsimp only
      rw [this]; rfl

/-- a case meeting the hypothesis of `c27_factorisation`: `[[3,1,2],[4,1,5]]` -/
example : ∃ s, compute 2 3 (fun r c => if r = 0 then (if c = 0 then 3 else if c = 1 then 1 else 2)
    else (if c = 0 then 4 else if c = 1 then 1 else 5)) = some s := by
  rw [← Option.isSome_iff_exists, c27_two_rows 3 (by omega)]
  norm_num

end TooN.QR
