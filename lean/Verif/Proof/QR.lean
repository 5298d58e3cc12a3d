import Verif.Model.QR
import Verif.Spec.Linear
import Verif.Proof.Ops
import Mathlib.LinearAlgebra.Matrix.NonsingularInverse
import Mathlib.Tactic.Ring
import Mathlib.Tactic.Linarith
import Mathlib.Tactic.FieldSimp
import Mathlib.Algebra.BigOperators.Field
/-! # Householder QR proofs -/
set_option linter.unusedSectionVars false
namespace TooN.QR
open Finset

theorem premul_apply (sz nc r0 c0 : Nat) (v : Vec ℝ) (s : ℝ) (A : Mat ℝ) (r c : Nat) :
    premul sz nc r0 c0 v s A r c =
      if (r0 ≤ r ∧ r < r0 + sz) ∧ (c0 ≤ c ∧ c < c0 + nc) then
        A r c - v (r - r0) * ((∑ i ∈ range sz, v i * A (r0 + i) c) / s) else A r c := by
  unfold premul
  have col : ∀ (k q : Nat) (x : ℝ) (B : Mat ℝ) (r c : Nat),
      forN k (fun row A => Mat.set A (r0 + row) q (A (r0 + row) q - v row * x)) B r c =
        if (r0 ≤ r ∧ r < r0 + k) ∧ c = q then B r c - v (r - r0) * x else B r c := by
    intro k q x B
    induction k with
    | zero => intro r c; rw [forN_zero, if_neg (by omega)]
    | succ k ih =>
      intro r c
      rw [forN_succ]
      by_cases h : r = r0 + k ∧ c = q
      · obtain ⟨rfl, rfl⟩ := h
        rw [Mat.set_self, if_pos (by omega), ih, if_neg (by omega)]
        congr 3; omega
      · rw [Mat.set_ne _ _ _ _ _ _ h, ih]
        by_cases h2 : (r0 ≤ r ∧ r < r0 + k) ∧ c = q
        · rw [if_pos h2, if_pos (by omega)]
        · rw [if_neg h2, if_neg (by omega)]
  induction nc generalizing r c with
  | zero => rw [forN_zero, if_neg (by omega)]
  | succ k ih =>
    rw [forN_succ]
    set D := forN k (fun col A =>
      let va := Ops.dot sz v (fun row => A (r0 + row) (c0 + col)) / s
      forN sz (fun row A => Mat.set A (r0 + row) (c0 + col) (A (r0 + row) (c0 + col) - v row * va)) A) A
    have hD : ∀ r, D r (c0 + k) = A r (c0 + k) := by intro r; rw [ih, if_neg (by omega)]
    show forN sz (fun row B => Mat.set B (r0 + row) (c0 + k) (B (r0 + row) (c0 + k) - v row *
      (Ops.dot sz v (fun row => D (r0 + row) (c0 + k)) / s))) D r c = _
    rw [col, dot_eq]
    simp only [hD]
    by_cases h : (r0 ≤ r ∧ r < r0 + sz) ∧ c = c0 + k
    · obtain ⟨h1, rfl⟩ := h
      rw [if_pos ⟨h1, rfl⟩, if_pos (by omega), hD]
    · rw [if_neg h, ih]
      by_cases h2 : (r0 ≤ r ∧ r < r0 + sz) ∧ (c0 ≤ c ∧ c < c0 + k)
      · rw [if_pos h2, if_pos (by omega)]
      · rw [if_neg h2, if_neg (by omega)]

/-- the reflection vector, zero-extended -/
def refl (n : Nat) (u : Vec ℝ) : Vec ℝ := fun r => if n ≤ r then u (r - n) else 0

/-- `P B` for the Householder matrix `P = 1 - u uᵀ/H` -/
theorem house_mul (R C : Nat) (w : Vec ℝ) (H : ℝ) (B : Mat ℝ) :
    (1 - Matrix.of fun i j : Fin R => w i * w j / H) * asM R C B =
      asM R C (fun r c => B r c - w r * ((∑ i ∈ range R, w i * B i c) / H)) := by
  rw [Matrix.sub_mul, Matrix.one_mul]
  ext i j
  rw [Matrix.sub_apply, asM_apply, asM_apply, Matrix.mul_apply, sum_range_fin]
  congr 1
  rw [Finset.sum_div, Finset.mul_sum]
  refine Finset.sum_congr rfl fun k _ => ?_
  simp only [Matrix.of_apply, asM_apply]; ring

theorem house_orth (R : Nat) (w : Vec ℝ) (H : ℝ) (hH : H ≠ 0) (hw : ∑ i ∈ range R, w i * w i = 2 * H) :
    (1 - Matrix.of fun i j : Fin R => w i * w j / H).transpose * (1 - Matrix.of fun i j : Fin R => w i * w j / H)
      = 1 := by
  have ht : (1 - Matrix.of fun i j : Fin R => w i * w j / H).transpose =
      (1 - Matrix.of fun i j : Fin R => w i * w j / H) := by
    rw [Matrix.transpose_sub, Matrix.transpose_one]
    congr 1
    ext i j
    simp only [Matrix.transpose_apply, Matrix.of_apply]; ring
  rw [ht, Matrix.sub_mul, Matrix.one_mul, Matrix.mul_sub, Matrix.mul_one]
  have : (Matrix.of fun i j : Fin R => w i * w j / H) * (Matrix.of fun i j : Fin R => w i * w j / H) =
      (2:ℝ) • (Matrix.of fun i j : Fin R => w i * w j / H) := by
    ext i j
    rw [Matrix.mul_apply, Matrix.smul_apply]
    simp only [Matrix.of_apply, smul_eq_mul]
    have : ∀ k : Fin R, w i * w k / H * (w k * w j / H) = (w i * w j / (H * H)) * (w k * w k) := by
      intro k; field_simp
    rw [Finset.sum_congr rfl (fun k _ => this k), ← Finset.mul_sum,
      Fin.sum_univ_eq_sum_range (fun k => w k * w k) R, hw]
    field_simp
  rw [this, two_smul]
  abel

theorem sum_refl (n R : Nat) (hn : n ≤ R) (u : Vec ℝ) (f : Nat → ℝ) :
    ∑ i ∈ range R, refl n u i * f i = ∑ i ∈ range (R - n), u i * f (n + i) := by
  have e : R = n + (R - n) := by omega
  conv_lhs => rw [e]
  rw [sum_range_add]
  have h0 : ∑ i ∈ range n, refl n u i * f i = 0 := by
    refine Finset.sum_eq_zero fun i hi => ?_
    have := mem_range.1 hi
    rw [refl, if_neg (by omega), zero_mul]
  rw [h0, zero_add]
  refine Finset.sum_congr rfl fun i _ => ?_
  rw [refl, if_pos (by omega)]
  congr 2; omega

theorem transposeLoop_apply (sq : Nat) (Q : Mat ℝ) (r c : Nat) :
    transposeLoop sq Q r c = if r < sq ∧ c < sq then Q c r else Q r c := by
  unfold transposeLoop
  have row : ∀ (r : Nat), r < sq → ∀ (B : Mat ℝ) (i j : Nat),
      forRange (r+1) sq (fun c Q => Mat.set (Mat.set Q r c (Q c r)) c r (Q r c)) B i j =
        if (i = r ∧ r < j ∧ j < sq) ∨ (j = r ∧ r < i ∧ i < sq) then B j i else B i j := by
    intro r hr B i j
    refine forRange_inv (fun k (D : Mat ℝ) => ∀ i j, D i j =
      if (i = r ∧ r < j ∧ j < k) ∨ (j = r ∧ r < i ∧ i < k) then B j i else B i j) (r+1) sq (by omega) _ B ?_ ?_ i j
    · intro i j; rw [if_neg (by omega)]
    · intro k D h1 h2 ih i j
      by_cases e1 : i = k ∧ j = r
      · obtain ⟨rfl, rfl⟩ := e1
        rw [Mat.set_self, if_pos (by omega), ih, if_neg (by omega)]
      · rw [Mat.set_ne _ _ _ _ _ _ e1]
        by_cases e2 : i = r ∧ j = k
        · obtain ⟨rfl, rfl⟩ := e2
          rw [Mat.set_self, if_pos (by omega), ih, if_neg (by omega)]
        · rw [Mat.set_ne _ _ _ _ _ _ e2, ih]
          by_cases e3 : (i = r ∧ r < j ∧ j < k) ∨ (j = r ∧ r < i ∧ i < k)
          · rw [if_pos e3, if_pos (by omega)]
          · rw [if_neg e3, if_neg (by omega)]
  have := forN_inv (fun k (D : Mat ℝ) => ∀ i j, D i j =
      if (i < k ∨ j < k) ∧ i < sq ∧ j < sq then Q j i else Q i j) sq
      (fun r Q => forRange (r+1) sq (fun c Q => Mat.set (Mat.set Q r c (Q c r)) c r (Q r c)) Q) Q
      (fun i j => by rw [if_neg (by omega)]) (by
        intro k D hk ih i j
        rw [row k hk]
        by_cases h : (i = k ∧ k < j ∧ j < sq) ∨ (j = k ∧ k < i ∧ i < sq)
        · rw [if_pos h, ih, if_neg (by omega), if_pos (by omega)]
        · rw [if_neg h, ih]
          by_cases h2 : (i < k ∨ j < k) ∧ i < sq ∧ j < sq
          · rw [if_pos h2, if_pos (by omega)]
          · rw [if_neg h2]
            by_cases h3 : (i < k + 1 ∨ j < k + 1) ∧ i < sq ∧ j < sq
            · have : i = k ∧ j = k := by omega
              rw [if_pos h3, this.1, this.2]
            · rw [if_neg h3])
  refine (this r c).trans ?_
  by_cases h : r < sq ∧ c < sq
  · rw [if_pos h, if_pos (by omega)]
  · rw [if_neg h, if_neg (by omega)]

/-- loop invariant after `k` reflections; `A` is the input -/
def Inv (R C : Nat) (A : Mat ℝ) (k : Nat) (s : St) : Prop :=
  (asM R R s.Q).transpose * asM R R s.Q = 1 ∧ asM R R s.Q * asM R C A = asM R C s.m ∧
  ∀ r c, c < k → c < r → r < R → s.m r c = 0

theorem zeroCol (sz n : Nat) (hsz : 1 ≤ sz) (m : Mat ℝ) (r c : Nat) :
    forRange 1 sz (fun i m => Mat.set m (n + i) n 0) m r c =
      if c = n ∧ n < r ∧ r < n + sz then 0 else m r c := by
  refine forRange_inv (fun k (D : Mat ℝ) => ∀ r c, D r c = if c = n ∧ n < r ∧ r < n + k then 0 else m r c)
    1 sz hsz _ m ?_ ?_ r c
  · intro r c; rw [if_neg (by omega)]
  · intro k D h1 h2 ih r c
    by_cases h : r = n + k ∧ c = n
    · obtain ⟨rfl, rfl⟩ := h
      rw [Mat.set_self, if_pos (by omega)]
    · rw [Mat.set_ne _ _ _ _ _ _ h, ih]
      by_cases h2 : c = n ∧ n < r ∧ r < n + k
      · rw [if_pos h2, if_pos (by omega)]
      · rw [if_neg h2, if_neg (by omega)]

theorem step_inv (R C : Nat) (hRC : R ≤ C) (A : Mat ℝ) (n : Nat) (hn : n < R - 1) (s s' : St)
    (h : Inv R C A n s) (hs : step C R n s = some s') : Inv R C A (n+1) s' := by
  obtain ⟨hQ, hm, hz⟩ := h
  unfold step at hs
  dsimp only at hs
  set a := Real.sqrt (Ops.dot (R - n) (fun i => s.m (n + i) n) (fun i => s.m (n + i) n)) *
    (if s.m n n < 0 then (-1:ℝ) else 1) with ha
  set m1 := Mat.set s.m n n (s.m n n - a) with hm1
  have hm1n : m1 n n = s.m n n - a := by rw [hm1, Mat.set_self]
  set H := -a * m1 n n with hH
  split at hs
  · exact absurd hs (by simp)
  rename_i hH0
  set u : Vec ℝ := fun i => m1 (n + i) n with hu
  set w := refl n u with hw
  have hsz : R - n = (R - n - 1) + 1 := by omega
  -- squared norm of the column
  have hnx : a * a = ∑ i ∈ range (R - n), s.m (n + i) n * s.m (n + i) n := by
    rw [← dot_eq (R - n) (fun i => s.m (n + i) n) (fun i => s.m (n + i) n)]
    have h0 : 0 ≤ Ops.dot (R - n) (fun i => s.m (n + i) n) (fun i => s.m (n + i) n) := by
      rw [dot_eq]; exact Finset.sum_nonneg fun i _ => mul_self_nonneg _
    rw [ha]
    by_cases hneg : s.m n n < 0
    · rw [if_pos hneg]
      have := Real.mul_self_sqrt h0; linarith
    · rw [if_neg hneg]
      have := Real.mul_self_sqrt h0; linarith
  have hu0 : u 0 = s.m n n - a := hm1n
  have hui : ∀ i, u (i+1) = s.m (n + (i+1)) n := by
    intro i; exact Mat.set_ne _ _ _ _ _ _ (by omega)
  rw [hsz, sum_range_succ'] at hnx
  have hxx : ∀ i, (fun i => s.m (n + (i+1)) n * s.m (n + (i+1)) n) i = u (i+1) * u (i+1) := by
    intro i; rw [hui]
  have hH' : H = a * (a - s.m n n) := by rw [hH, hm1n]; ring
  have hnorm : ∑ i ∈ range R, w i * w i = 2 * H := by
    rw [sum_refl n R (by omega) u w, hsz, sum_range_succ']
    have e : ∀ i, w (n + i) = u i := by intro i; rw [hw, refl, if_pos (by omega)]; congr 1; omega
    simp only [e, hui, hu0]
    simp only [Nat.add_zero] at hnx
    rw [hH']
    linarith
  have hdotx : ∑ i ∈ range R, w i * s.m i n = H := by
    rw [sum_refl n R (by omega) u (fun i => s.m i n), hsz, sum_range_succ']
    simp only [hui, hu0, Nat.add_zero]
    simp only [Nat.add_zero] at hnx
    rw [hH']
    linarith
  have horth := house_orth R w H hH0 hnorm
  set P := (1 - Matrix.of fun i j : Fin R => w i * w j / H) with hP
  -- the new state, elementwise
  injection hs with hs
  have hQ' : asM R R s'.Q = P * asM R R s.Q := by
    rw [hP, house_mul, ← hs]
    rw [asM_eq_iff]
    intro r c hr hc
    show premul (R - n) R n 0 u H s.Q r c = _
    rw [premul_apply, hw, sum_refl n R (by omega) u (fun i => s.Q i c), refl]
    by_cases h : n ≤ r
    · rw [if_pos (by omega), if_pos h]
    · rw [if_neg (by omega), if_neg h, zero_mul, sub_zero]
  have hmel : ∀ r c, r < R → c < C → s'.m r c = s.m r c - w r * ((∑ i ∈ range R, w i * s.m i c) / H) := by
    intro r c hr hc
    rw [← hs]
    show forRange 1 (R - n) (fun i m => Mat.set m (n + i) n 0)
      (Mat.set (premul (R - n) (C - n - 1) n (n + 1) u H m1) n n a) r c = _
    rw [zeroCol _ _ (by omega)]
    rcases Nat.lt_trichotomy c n with hcn | hcn | hcn
    · -- finished columns
      rw [if_neg (by omega), Mat.set_ne _ _ _ _ _ _ (by omega), premul_apply, if_neg (by omega),
        hm1, Mat.set_ne _ _ _ _ _ _ (by omega)]
      have : ∑ i ∈ range R, w i * s.m i c = 0 := by
        refine Finset.sum_eq_zero fun i hi => ?_
        have := mem_range.1 hi
        by_cases hin : n ≤ i
        · rw [hz i c hcn (by omega) (by omega), mul_zero]
        · rw [hw, refl, if_neg hin, zero_mul]
      rw [this, zero_div, mul_zero, sub_zero]
    · subst hcn
      rw [hdotx, div_self hH0, mul_one, hw, refl]
      rcases Nat.lt_trichotomy r c with hrn | hrn | hrn
      · rw [if_neg (by omega), if_neg (by omega), Mat.set_ne _ _ _ _ _ _ (by omega), premul_apply,
          if_neg (by omega), hm1, Mat.set_ne _ _ _ _ _ _ (by omega), sub_zero]
      · subst hrn
        rw [if_neg (by omega), Mat.set_self, if_pos le_rfl, Nat.sub_self, hu0]; ring
      · rw [if_pos (by omega), if_pos (by omega)]
        obtain ⟨i, rfl⟩ : ∃ i, r = c + (i + 1) := ⟨r - c - 1, by omega⟩
        rw [show c + (i+1) - c = i + 1 by omega, hui]; ring
    · rw [if_neg (by omega), Mat.set_ne _ _ _ _ _ _ (by omega), premul_apply]
      have hm1c : ∀ r, m1 r c = s.m r c := by intro r; rw [hm1, Mat.set_ne _ _ _ _ _ _ (by omega)]
      simp only [hm1c]
      rw [hw, sum_refl n R (by omega) u (fun i => s.m i c), refl]
      by_cases h : n ≤ r
      · rw [if_pos (by omega), if_pos h]
      · rw [if_neg (by omega), if_neg h, zero_mul, sub_zero]
  have hm' : asM R C s'.m = P * asM R C s.m := by
    rw [hP, house_mul, asM_eq_iff]
    intro r c hr hc
    exact hmel r c hr hc
  refine ⟨?_, ?_, ?_⟩
  · rw [hQ', Matrix.transpose_mul, Matrix.mul_assoc, ← Matrix.mul_assoc P.transpose, horth, Matrix.one_mul, hQ]
  · rw [hQ', Matrix.mul_assoc, hm, hm']
  · intro r c hc hcr hr
    rw [← hs]
    show forRange 1 (R - n) (fun i m => Mat.set m (n + i) n 0)
      (Mat.set (premul (R - n) (C - n - 1) n (n + 1) u H m1) n n a) r c = 0
    rw [zeroCol _ _ (by omega)]
    by_cases e : c = n
    · rw [if_pos (by omega)]
    · rw [if_neg (by omega), Mat.set_ne _ _ _ _ _ _ (by omega), premul_apply, if_neg (by omega), hm1,
        Mat.set_ne _ _ _ _ _ _ (by omega)]
      exact hz r c (by omega) hcr hr

end TooN.QR
