import Verif.Model.Ops
import Verif.Spec.Linear
import Mathlib.Algebra.BigOperators.Fin
import Mathlib.Tactic.Common
import Mathlib.Tactic.Ring
/-! Helper lemmas for `Props/Ops.lean`. -/
namespace TooN
variable {K : Type _}
open Finset

theorem forN_vecset (n : Nat) (f : Nat → K) (u : Vec K) (j : Nat) :
    forN n (fun i res => Vec.set res i (f i)) u j = if j < n then f j else u j := by
  induction n with
  | zero => simp
  | succ n ih =>
    rw [forN_succ, Vec.set]
    by_cases h : j = n
    · subst h; simp
    · rw [if_neg h, ih]
      by_cases h2 : j < n
      · rw [if_pos h2, if_pos (by omega)]
      · rw [if_neg h2, if_neg (by omega)]

theorem forN_vecupd (n : Nat) (f : Nat → K → K) (u : Vec K) (j : Nat) :
    forN n (fun i (res : Vec K) => Vec.set res i (f i (res i))) u j = if j < n then f j (u j) else u j := by
  induction n generalizing j with
  | zero => simp
  | succ n ih =>
    rw [forN_succ, Vec.set]
    by_cases h : j = n
    · subst h; rw [if_pos rfl, ih]; simp
    · rw [if_neg h, ih]
      by_cases h2 : j < n
      · rw [if_pos h2, if_pos (by omega)]
      · rw [if_neg h2, if_neg (by omega)]

theorem forN_diagupd (n : Nat) (f : Nat → K → K) (u : Mat K) (r c : Nat) :
    forN n (fun i (m : Mat K) => Mat.set m i i (f i (m i i))) u r c =
      if r = c ∧ r < n then f r (u r c) else u r c := by
  induction n generalizing r c with
  | zero => simp
  | succ n ih =>
    rw [forN_succ, Mat.set]
    by_cases h : r = n ∧ c = n
    · obtain ⟨rfl, rfl⟩ := h; rw [if_pos ⟨rfl, rfl⟩, ih]; simp
    · rw [if_neg h, ih]
      by_cases h2 : r = c ∧ r < n
      · rw [if_pos h2, if_pos (by omega)]
      · rw [if_neg h2, if_neg (by omega)]

theorem forN_rowupd (C r : Nat) (f : Nat → K → K) (u : Mat K) (i j : Nat) :
    forN C (fun c (m : Mat K) => Mat.set m r c (f c (m r c))) u i j =
      if i = r ∧ j < C then f j (u i j) else u i j := by
  induction C generalizing i j with
  | zero => simp
  | succ n ih =>
    rw [forN_succ, Mat.set]
    by_cases h : i = r ∧ j = n
    · obtain ⟨rfl, rfl⟩ := h; rw [if_pos ⟨rfl, rfl⟩, ih]; simp
    · rw [if_neg h, ih]
      by_cases h2 : i = r ∧ j < n
      · rw [if_pos h2, if_pos (by omega)]
      · rw [if_neg h2, if_neg (by omega)]

theorem forN_matupd (R C : Nat) (f : Nat → Nat → K → K) (u : Mat K) (i j : Nat) :
    forN R (fun r m => forN C (fun c (m : Mat K) => Mat.set m r c (f r c (m r c))) m) u i j =
      if i < R ∧ j < C then f i j (u i j) else u i j := by
  induction R generalizing i j with
  | zero => simp
  | succ n ih =>
    rw [forN_succ, forN_rowupd]
    by_cases h : i = n ∧ j < C
    · obtain ⟨rfl, h2⟩ := h
      rw [if_pos ⟨rfl, h2⟩, ih, if_neg (by omega), if_pos (by omega)]
    · rw [if_neg h, ih]
      by_cases h2 : i < n ∧ j < C
      · rw [if_pos h2, if_pos (by omega)]
      · rw [if_neg h2, if_neg (by omega)]

theorem evalM_apply (R C : Nat) (f : Nat → Nat → K) (u : Mat K) (i j : Nat) :
    Ops.evalM R C f u i j = if i < R ∧ j < C then f i j else u i j :=
  forN_matupd R C (fun r c _ => f r c) u i j

theorem forN_colset (R c : Nat) (f : Nat → K) (u : Mat K) (i j : Nat) :
    forN R (fun r (m : Mat K) => Mat.set m r c (f r)) u i j =
      if j = c ∧ i < R then f i else u i j := by
  induction R generalizing i j with
  | zero => simp
  | succ n ih =>
    rw [forN_succ, Mat.set]
    by_cases h : i = n ∧ j = c
    · obtain ⟨rfl, rfl⟩ := h; simp
    · rw [if_neg h, ih]
      by_cases h2 : j = c ∧ i < n
      · rw [if_pos h2, if_pos (by omega)]
      · rw [if_neg h2, if_neg (by omega)]

theorem evalMc_apply (R C : Nat) (f : Nat → Nat → K) (u : Mat K) (i j : Nat) :
    Ops.evalMc R C f u i j = if i < R ∧ j < C then f i j else u i j := by
  unfold Ops.evalMc
  induction C with
  | zero => simp
  | succ n ih =>
    rw [forN_succ, forN_colset]
    by_cases h : j = n ∧ i < R
    · obtain ⟨rfl, h2⟩ := h
      rw [if_pos ⟨rfl, h2⟩, if_pos (by omega)]
    · rw [if_neg h, ih]
      by_cases h2 : i < R ∧ j < n
      · rw [if_pos h2, if_pos (by omega)]
      · rw [if_neg h2, if_neg (by omega)]

theorem forN_sum [AddCommMonoid K] (n : Nat) (f : Nat → K) (a : K) :
    forN n (fun i s => s + f i) a = a + ∑ i ∈ range n, f i := by
  induction n with
  | zero => simp
  | succ n ih => rw [forN_succ, ih, sum_range_succ, add_assoc]

theorem dot_eq [NonUnitalNonAssocSemiring K] (n : Nat) (a b : Vec K) :
    Ops.dot n a b = ∑ i ∈ range n, a i * b i := by
  unfold Ops.dot; rw [forN_sum, zero_add]

theorem sum_range_fin [AddCommMonoid K] (n : Nat) (f : Nat → K) :
    ∑ i ∈ range n, f i = ∑ i : Fin n, f i := (Fin.sum_univ_eq_sum_range f n).symm

/-- early-exit search loops -/
theorem forNM_unit_isSome (n : Nat) (p : Nat → Bool) :
    (forNM n (fun i (_ : Unit) => if p i = true then none else some ()) ()).isSome = true ↔
      ∀ i, i < n → p i = false := by
  induction n with
  | zero => simp
  | succ n ih =>
    rw [forNM_succ]
    cases hq : forNM n (fun i (_ : Unit) => if p i = true then none else some ()) () with
    | none =>
      simp only [hq, Option.isSome_none, Bool.false_eq_true, false_iff] at ih
      simp only [Option.bind_none, Option.isSome_none, Bool.false_eq_true, false_iff]
      exact fun h => ih fun i hi => h i (by omega)
    | some u =>
      simp only [hq, Option.isSome_some, true_iff] at ih
      simp only [Option.bind_some]
      constructor
      · intro h i hi
        by_cases e : i = n
        · subst e
          by_contra hc
          simp only [Bool.not_eq_false] at hc
          rw [if_pos hc] at h; simp at h
        · exact ih i (by omega)
      · intro h; rw [if_neg (by rw [h n (by omega)]; decide)]; rfl

theorem forNM_unit_nested (R C : Nat) (p : Nat → Nat → Bool) :
    (forNM R (fun r (_ : Unit) =>
      forNM C (fun c (_ : Unit) => if p r c = true then none else some ()) ()) ()).isSome = true ↔
      ∀ r c, r < R → c < C → p r c = false := by
  induction R with
  | zero => simp
  | succ n ih =>
    rw [forNM_succ]
    cases hq : forNM n (fun r (_ : Unit) =>
      forNM C (fun c (_ : Unit) => if p r c = true then none else some ()) ()) () with
    | none =>
      simp only [hq, Option.isSome_none, Bool.false_eq_true, false_iff] at ih
      simp only [Option.bind_none, Option.isSome_none, Bool.false_eq_true, false_iff]
      exact fun h => ih fun r c hr hc => h r c (by omega) hc
    | some u =>
      simp only [hq, Option.isSome_some, true_iff] at ih
      simp only [Option.bind_some]
      rw [forNM_unit_isSome C (fun c => p n c)]
      constructor
      · intro h r c hr hc
        by_cases e : r = n
        · subst e; exact h c hc
        · exact ih r c (by omega) hc
      · intro h c hc; exact h n c (by omega) hc

end TooN
