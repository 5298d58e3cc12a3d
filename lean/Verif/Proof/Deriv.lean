import Verif.Model.Deriv
import Verif.Spec.Deriv
import Mathlib.Tactic
set_option linter.unusedSectionVars false
set_option linter.unusedVariables false
namespace TooN.Deriv
open Spec
open scoped Classical
noncomputable section

theorem node_pos (k : Nat) : 0 < node k := by unfold node; positivity
theorem node_inj : Function.Injective node := by
  intro a b h
  have : StrictAnti node := by
    intro a b hab
    exact pow_lt_pow_right_of_lt_one₀ (by norm_num) (by norm_num) hab
  exact this.injective h
theorem node_succ (k : Nat) : node (k + 1) = node k / c := by
  unfold node c; rw [pow_succ]; ring

theorem E_zero (y : Nat → Option ℝ) (i : Nat) : E y i 0 = y i := by
  unfold E
  by_cases h : y i = none
  · rw [if_neg, h]
    intro hh; exact hh i (by omega) le_rfl h
  · obtain ⟨v, hv⟩ := Option.ne_none_iff_exists'.mp h
    rw [if_pos]
    · simp [hv]
    · intro k h1 h2
      have : k = i := by omega
      rw [this]; exact h

theorem neville_val (y : Nat → ℝ) (i j : Nat) (hj : j + 1 ≤ i) :
    (Lagrange.interpolate (Finset.Icc (i - (j + 1)) i) node y).eval 0 =
      (c ^ (j + 1) * (Lagrange.interpolate (Finset.Icc (i - j) i) node y).eval 0 -
        (Lagrange.interpolate (Finset.Icc (i - 1 - j) (i - 1)) node y).eval 0) / (c ^ (j + 1) - 1) := by
  obtain ⟨a, rfl⟩ := Nat.exists_eq_add_of_le hj
  have e1 : j + 1 + a - (j + 1) = a := by omega
  have e2 : j + 1 + a - j = a + 1 := by omega
  have e3 : j + 1 + a - 1 - j = a := by omega
  have e4 : j + 1 + a - 1 = j + a := by omega
  rw [e1, e2, e3, e4]
  have hne : j + 1 + a ≠ a := by omega
  rw [Lagrange.interpolate_eq_add_interpolate_erase (i := j + 1 + a) (j := a) _ node_inj.injOn (by simp) (by simp) hne]
  have s1 : (Finset.Icc a (j + 1 + a)).erase a = Finset.Icc (a + 1) (j + 1 + a) := by
    ext k; simp
  have s2 : (Finset.Icc a (j + 1 + a)).erase (j + 1 + a) = Finset.Icc a (j + a) := by
    ext k; simp; omega
  rw [s1, s2]
  have hn : node (j + 1 + a) * c ^ (j + 1) = node a := by
    unfold node c
    rw [pow_add, mul_right_comm, ← mul_pow]; norm_num
  have hpos := node_pos (j + 1 + a)
  have hc : (1 : ℝ) < c ^ (j + 1) := one_lt_pow₀ (by unfold c; norm_num) (by omega)
  simp only [Polynomial.eval_add, Polynomial.eval_mul, Lagrange.basisDivisor, Polynomial.eval_C, Polynomial.eval_sub,
    Polynomial.eval_X]
  rw [← hn]
  generalize Polynomial.eval 0 (Lagrange.interpolate (Finset.Icc (a + 1) (j + 1 + a)) node y) = A
  generalize Polynomial.eval 0 (Lagrange.interpolate (Finset.Icc a (j + a)) node y) = B
  generalize node (j + 1 + a) = x at *
  generalize c ^ (j + 1) = q at *
  have h1 : q - 1 ≠ 0 := by linarith
  have h2 : x - x * q ≠ 0 := by
    have : x - x * q = -(x * (q - 1)) := by ring
    rw [this]; exact neg_ne_zero.mpr (mul_ne_zero hpos.ne' h1)
  have h3 : x * q - x ≠ 0 := by
    have : x * q - x = x * (q - 1) := by ring
    rw [this]; exact mul_ne_zero hpos.ne' h1
  field_simp
  have h4 : 1 - q ≠ 0 := by intro h; apply h1; linarith
  field_simp
  ring

theorem E_succ (y : Nat → Option ℝ) (i j : Nat) (hj : j + 1 ≤ i) :
    E y i (j + 1) = entry (c ^ (j + 1)) (E y i j) (E y (i - 1) j) := by
  by_cases h : ∀ k, i - (j + 1) ≤ k → k ≤ i → y k ≠ none
  · have h1 : ∀ k, i - j ≤ k → k ≤ i → y k ≠ none := fun k a b => h k (by omega) b
    have h2 : ∀ k, i - 1 - j ≤ k → k ≤ i - 1 → y k ≠ none := fun k a b => h k (by omega) (by omega)
    unfold E
    rw [if_pos h, if_pos h1, if_pos h2]
    simp only [entry]
    rw [neville_val _ _ _ hj]
  · have : ¬ ((∀ k, i - j ≤ k → k ≤ i → y k ≠ none) ∧ (∀ k, i - 1 - j ≤ k → k ≤ i - 1 → y k ≠ none)) := by
      rintro ⟨h1, h2⟩
      apply h
      intro k a b
      by_cases hk : k = i
      · exact h1 k (by omega) b
      · exact h2 k (by omega) (by omega)
    have hE : E y i (j + 1) = none := by unfold E; rw [if_neg h]
    rw [hE]
    unfold E
    by_cases h1 : ∀ k, i - j ≤ k → k ≤ i → y k ≠ none
    · rw [if_pos h1, if_neg (fun h2 => this ⟨h1, h2⟩)]; rfl
    · rw [if_neg h1]; rfl

/-- finite extrapolations have finite errors -/
theorem err_isSome (y : Nat → Option ℝ) (i j : Nat) (h1 : 1 ≤ j) (h2 : j ≤ i) : err y i j = none ↔ E y i j = none := by
  obtain ⟨k, rfl⟩ := Nat.exists_eq_add_of_le' h1
  have := E_succ y i k h2
  unfold err
  simp only [Nat.add_sub_cancel]
  rw [this]
  cases ha : E y i k <;> cases hb : E y (i - 1) k <;> simp [entry]

theorem err_eq (y : Nat → Option ℝ) (i j : Nat) :
    err y i j = maxO (absDiff (E y i j) (E y i (j - 1))) (absDiff (E y i j) (E y (i - 1) (j - 1))) := by
  unfold err
  cases E y i j <;> cases E y i (j - 1) <;> cases E y (i - 1) (j - 1) <;> rfl

/-- entries processed before column `k` of row `i` -/
def Done (i k a b : Nat) : Prop := 1 ≤ b ∧ b ≤ a ∧ (a < i ∨ a = i ∧ b < k)

structure RowInv (y : Nat → Option ℝ) (i k : Nat) (r : Row) : Prop where
  P : ∀ l, l < k → r.P l = E y i l
  cj : r.cj = c ^ (k - 1)
  best : IsBest y (Done i k) (r.bestPoint, r.bestErr)
  ok : r.everOk = true ↔ ∃ a b, Done i k a b ∧ E y a b ≠ none
  better : r.better = true ↔ ∃ j e, 1 ≤ j ∧ j < k ∧ j ≤ i ∧ err y i j = some e ∧
    ∀ i' j' e', 1 ≤ j' → j' ≤ i' → i' < i → err y i' j' = some e' → e < e'

theorem rowStep_inv (y : Nat → Option ℝ) (i k : Nat) (hk : 1 ≤ k) (hki : k ≤ i) (P1 : Nat → Option ℝ)
    (hP1 : ∀ l, l < i → P1 l = E y (i - 1) l) (r : Row) (h : RowInv y i k r) : RowInv y i (k + 1) (rowStep P1 k r) := by
  obtain ⟨q, rfl⟩ := Nat.exists_eq_add_of_le' hk
  have hp : entry (r.cj * c) (r.P (q + 1 - 1)) (P1 (q + 1 - 1)) = E y i (q + 1) := by
    rw [E_succ y i q hki, h.cj]
    simp only [Nat.add_sub_cancel]
    rw [h.P q (by omega), hP1 q (by omega), pow_succ]
  have herr : maxO (absDiff (Function.update r.P (q + 1) (E y i (q + 1)) (q + 1)) (Function.update r.P (q + 1) (E y i (q + 1)) (q + 1 - 1)))
      (absDiff (Function.update r.P (q + 1) (E y i (q + 1)) (q + 1)) (P1 (q + 1 - 1))) = err y i (q + 1) := by
    rw [err_eq]
    simp only [Nat.add_sub_cancel, Function.update_self]
    rw [Function.update_of_ne (by omega), h.P q (by omega), hP1 q (by omega)]
  have hDone : ∀ a b, Done i (q + 1 + 1) a b ↔ Done i (q + 1) a b ∨ (a = i ∧ b = q + 1) := by
    intro a b; unfold Done; omega
  have hP : ∀ l, l < q + 1 + 1 → Function.update r.P (q + 1) (E y i (q + 1)) l = E y i l := by
    intro l hl
    by_cases e : l = q + 1
    · rw [e, Function.update_self]
    · rw [Function.update_of_ne e]; exact h.P l (by omega)
  have hcj : r.cj * c = c ^ (q + 1 + 1 - 1) := by rw [h.cj, Nat.add_sub_cancel, Nat.add_sub_cancel, pow_succ]
  have hok : (if fin (E y i (q + 1)) then true else r.everOk) = true ↔ ∃ a b, Done i (q + 1 + 1) a b ∧ E y a b ≠ none := by
    by_cases hf : fin (E y i (q + 1))
    · rw [if_pos hf]
      simp only [true_iff]
      exact ⟨i, q + 1, (hDone _ _).mpr (Or.inr ⟨rfl, rfl⟩), hf⟩
    · rw [if_neg hf, h.ok]
      constructor
      · rintro ⟨a, b, hd, he⟩; exact ⟨a, b, (hDone _ _).mpr (Or.inl hd), he⟩
      · rintro ⟨a, b, hd, he⟩
        rcases (hDone _ _).mp hd with hd | ⟨rfl, rfl⟩
        · exact ⟨a, b, hd, he⟩
        · exact absurd he hf
  unfold rowStep
  simp only [hp, herr]
  by_cases hb : Deriv.better (err y i (q + 1)) r.bestErr
  · rw [if_pos hb]
    obtain ⟨e, he⟩ : ∃ e, err y i (q + 1) = some e := by
      cases hh : err y i (q + 1) with
      | none => rw [hh] at hb; exact absurd hb (by simp [Deriv.better])
      | some e => exact ⟨e, rfl⟩
    have hEne : E y i (q + 1) ≠ none := by
      intro hh
      rw [(err_isSome y i (q + 1) hk hki).mpr hh] at he; exact absurd he (by simp)
    obtain ⟨p, hpE⟩ := Option.ne_none_iff_exists'.mp hEne
    have hlt : ∀ a b e', Done i (q + 1) a b → err y a b = some e' → e < e' := by
      intro a b e' hd he'
      rcases h.best with ⟨hn, hres⟩ | ⟨i0, j0, p0, e0, hd0, hE0, he0, hres, hmin⟩
      · rw [hn a b hd] at he'; exact absurd he' (by simp)
      · have : r.bestErr = some e0 := congrArg Prod.snd hres
        rw [he, this] at hb
        have hb : e < e0 := hb
        exact lt_of_lt_of_le hb (hmin a b e' hd he').1
    refine ⟨hP, hcj, ?_, hok, ?_⟩
    · right
      refine ⟨i, q + 1, p, e, (hDone _ _).mpr (Or.inr ⟨rfl, rfl⟩), hpE, he, ?_, ?_⟩
      · simp only [Function.update_self]; rw [hpE, he]
      · intro i' j' e' hd he'
        rcases (hDone _ _).mp hd with hd | ⟨rfl, rfl⟩
        · have := hlt _ _ _ hd he'
          exact ⟨this.le, fun _ => this⟩
        · rw [he] at he'
          have : e = e' := by simpa using he'
          exact ⟨this.le, fun h => by omega⟩
    · simp only [true_iff]
      exact ⟨q + 1, e, hk, by omega, hki, he, fun i' j' e' h1 h2 h3 h4 => hlt i' j' e' ⟨h1, h2, Or.inl h3⟩ h4⟩
  · rw [if_neg hb]
    refine ⟨hP, hcj, ?_, hok, ?_⟩
    · show IsBest y _ (r.bestPoint, r.bestErr)
      rcases h.best with ⟨hn, hres⟩ | ⟨i0, j0, p0, e0, hd0, hE0, he0, hres, hmin⟩
      · left
        refine ⟨?_, hres⟩
        intro a b hd
        rcases (hDone _ _).mp hd with hd | ⟨rfl, rfl⟩
        · exact hn a b hd
        · have hbe : r.bestErr = none := congrArg Prod.snd hres
          rw [hbe] at hb
          cases hh : err y a (q + 1) with
          | none => rfl
          | some e => rw [hh] at hb; exact absurd trivial hb
      · right
        refine ⟨i0, j0, p0, e0, (hDone _ _).mpr (Or.inl hd0), hE0, he0, hres, ?_⟩
        intro i' j' e' hd he'
        rcases (hDone _ _).mp hd with hd | ⟨rfl, rfl⟩
        · exact hmin _ _ _ hd he'
        · have hbe : r.bestErr = some e0 := congrArg Prod.snd hres
          rw [hbe, he'] at hb
          have hb : ¬ e' < e0 := hb
          refine ⟨not_lt.mp hb, fun hl => ?_⟩
          unfold Done at hd0; omega
    · show r.better = true ↔ _
      rw [h.better]
      constructor
      · rintro ⟨j, e, h1, h2, h3⟩; exact ⟨j, e, h1, by omega, h3⟩
      · rintro ⟨j, e, h1, h2, h3, h4, h5⟩
        by_cases hj : j < q + 1
        · exact ⟨j, e, h1, hj, h3, h4, h5⟩
        · have hj : j = q + 1 := by omega
          subst hj
          rcases h.best with ⟨hn, hres⟩ | ⟨i0, j0, p0, e0, hd0, hE0, he0, hres, hmin⟩
          · have hbe : r.bestErr = none := congrArg Prod.snd hres
            rw [hbe, h4] at hb; exact absurd trivial hb
          · have hbe : r.bestErr = some e0 := congrArg Prod.snd hres
            rw [hbe, h4] at hb
            have hb : ¬ e < e0 := hb
            obtain ⟨hb1, hb2, hb3⟩ := hd0
            rcases hb3 with hlt | ⟨rfl, hlt⟩
            · exact absurd (h5 i0 j0 e0 hb1 hb2 hlt he0) hb
            · refine ⟨j0, e0, hb1, hlt, hb2, he0, ?_⟩
              intro i' j' e' g1 g2 g3 g4
              exact (hmin i' j' e' ⟨g1, g2, Or.inl g3⟩ g4).2 (Or.inl g3)

structure ExtInv (y : Nat → Option ℝ) (i : Nat) (e : Ext) : Prop where
  P : 0 < i → ∀ l, l < i → e.P l = E y (i - 1) l
  best : IsBest y (Rows i) (e.bestPoint, e.bestErr)
  ok : e.everOk = true ↔ ∃ a b, Rows i a b ∧ E y a b ≠ none
  x : e.x = node i
  calls : e.calls = i

theorem extInit_inv (y : Nat → Option ℝ) : ExtInv y 0 extInit := by
  refine ⟨fun h => absurd h (by omega), Or.inl ⟨fun i j h => absurd h.2.2 (by omega), rfl⟩, ?_, by simp [extInit, node], rfl⟩
  constructor
  · intro h; exact absurd h (by simp [extInit])
  · rintro ⟨a, b, h, _⟩; exact absurd h.2.2 (by omega)

theorem IsBest_congr {y : Nat → Option ℝ} {D D' : Nat → Nat → Prop} (h : ∀ a b, D a b ↔ D' a b) {res} :
    IsBest y D res → IsBest y D' res := by
  have : D = D' := by funext a b; exact propext (h a b)
  rw [this]; exact id

theorem rowPass_inv (y : Nat → Option ℝ) (i : Nat) (e : Ext) (h : ExtInv y i e) :
    ExtInv y (i + 1) (rowPass i (y i) e).1 ∧ ((rowPass i (y i) e).2 = true ↔ Improves y i) ∧
    (0 < i → ∀ l, l < i → (rowPass i (y i) e).1.P1 l = E y (i - 1) l) := by
  have key : RowInv y i (i + 1) (forRange 1 (i + 1) (rowStep e.P)
      { P := Function.update e.P1 0 (y i), cj := 1, bestErr := e.bestErr, bestPoint := e.bestPoint, everOk := e.everOk,
        better := false }) := by
    refine forRange_inv (RowInv y i) 1 (i + 1) (by omega) _ _ ?_ ?_
    · refine ⟨?_, by simp, ?_, ?_, ?_⟩
      · intro l hl
        have : l = 0 := by omega
        subst this
        simp [E_zero]
      · exact IsBest_congr (fun a b => by unfold Rows Done; omega) h.best
      · show e.everOk = true ↔ _
        rw [h.ok]
        have : ∀ a b, Rows i a b ↔ Done i 1 a b := fun a b => by unfold Rows Done; omega
        simp only [this]
      · constructor
        · intro h; exact absurd h (by simp)
        · rintro ⟨j, e, h1, h2, _⟩; omega
    · intro k r h1 h2 hr
      exact rowStep_inv y i k h1 (by omega) e.P (h.P (by omega)) r hr
  have hD : ∀ a b, Done i (i + 1) a b ↔ Rows (i + 1) a b := fun a b => by unfold Rows Done; omega
  refine ⟨⟨?_, ?_, ?_, ?_, ?_⟩, ?_, ?_⟩
  · intro _ l hl; exact key.P l hl
  · exact IsBest_congr hD key.best
  · show _ = true ↔ _
    have := key.ok
    simp only [hD] at this
    exact this
  · show e.x / c = _
    rw [h.x, node_succ]
  · show e.calls + 1 = _
    rw [h.calls]
  · show _ = true ↔ _
    refine key.better.trans ?_
    unfold Improves
    constructor
    · rintro ⟨j, e, h1, _, h3⟩; exact ⟨j, e, h1, h3⟩
    · rintro ⟨j, e, h1, h3, h4⟩; exact ⟨j, e, h1, by omega, h3, h4⟩
  · intro hi l hl; exact h.P hi l hl

theorem offRails_iff (y : Nat → Option ℝ) (i : Nat) (hi : 0 < i) (e : Ext) (h : ExtInv y (i + 1) e)
    (hP1 : ∀ l, l < i → e.P1 l = E y (i - 1) l) :
    offRails i e ↔ (E y i i = none ∨ ∃ a b, E y i i = some a ∧ E y (i - 1) (i - 1) = some b ∧
      ∃ i' j' e, 1 ≤ j' ∧ j' ≤ i' ∧ i' ≤ i ∧ err y i' j' = some e ∧ |a - b| > 2 * e) := by
  unfold offRails
  rw [h.P (by omega) i (by omega), hP1 (i - 1) (by omega)]
  simp only [Nat.add_sub_cancel]
  obtain ⟨k, rfl⟩ := Nat.exists_eq_add_of_le' hi
  have hs := E_succ y (k + 1) k le_rfl
  simp only [Nat.add_sub_cancel] at hs ⊢
  cases hE : E y (k + 1) (k + 1) with
  | none => simp [absDiff]
  | some a =>
    have hb : ∃ b, E y k k = some b := by
      rw [hE] at hs
      cases hh : E y k k with
      | none => rw [hh] at hs; cases hE' : E y (k + 1) k <;> rw [hE'] at hs <;> simp [entry] at hs
      | some b => exact ⟨b, rfl⟩
    obtain ⟨b, hb⟩ := hb
    rw [hb]
    simp only [absDiff, reduceCtorEq, false_or, Option.some.injEq]
    rcases h.best with ⟨hn, hres⟩ | ⟨i0, j0, p0, e0, hd0, hE0, he0, hres, hmin⟩
    · have hbe : e.bestErr = none := congrArg Prod.snd hres
      rw [hbe]
      simp only [false_iff]
      rintro ⟨a', b', rfl, rfl, i', j', e', h1, h2, h3, h4, _⟩
      rw [hn i' j' ⟨h1, h2, by omega⟩] at h4
      exact absurd h4 (by simp)
    · have hbe : e.bestErr = some e0 := congrArg Prod.snd hres
      rw [hbe]
      simp only [t]
      constructor
      · intro hh
        exact ⟨a, b, rfl, rfl, i0, j0, e0, hd0.1, hd0.2.1, by have := hd0.2.2; omega, he0, hh⟩
      · rintro ⟨a', b', rfl, rfl, i', j', e', h1, h2, h3, h4, h5⟩
        have := (hmin i' j' e' ⟨h1, h2, by omega⟩ h4).1
        linarith

variable {S : Type}

theorem extLoop_spec (F : S → ℝ → Option ℝ × S) (s : S) (n : Nat) : ∀ (i : Nat) (e : Ext),
    ExtInv (vals F s) i e → (∀ k, k < i → ¬ Stop (vals F s) k) → 
    ∃ m, i ≤ m ∧ m ≤ i + n ∧ (1 ≤ n → i < m) ∧ ExtInv (vals F s) m (extLoop F n i (traj F s i) e).1 ∧
      (extLoop F n i (traj F s i) e).2 = traj F s m ∧ (∀ k, k + 1 < m → ¬ Stop (vals F s) k) ∧
      (m = i + n ∨ (1 ≤ m ∧ Stop (vals F s) (m - 1))) := by
  induction n with
  | zero =>
    intro i e h hs
    exact ⟨i, le_rfl, le_rfl, fun h => absurd h (by omega), h, rfl, fun k hk => hs k (by omega), Or.inl rfl⟩
  | succ n ih =>
    intro i e h hs
    have hy : (F (traj F s i) e.x).1 = vals F s i := by rw [h.x]; rfl
    have ht : (F (traj F s i) e.x).2 = traj F s (i + 1) := by rw [h.x]; rfl
    obtain ⟨h1, h2, h3⟩ := rowPass_inv (vals F s) i e h
    have hstop : ((rowPass i (vals F s i) e).1.everOk = true ∧ (rowPass i (vals F s i) e).2 = false ∧ i > 0 ∧
        offRails i (rowPass i (vals F s i) e).1) ↔ Stop (vals F s) i := by
      unfold Stop
      rw [h1.ok]
      have e1 : (∃ a b, Rows (i + 1) a b ∧ E (vals F s) a b ≠ none) ↔
          (∃ i' j', 1 ≤ j' ∧ j' ≤ i' ∧ i' ≤ i ∧ E (vals F s) i' j' ≠ none) := by
        constructor
        · rintro ⟨a, b, ⟨g1, g2, g3⟩, g4⟩; exact ⟨a, b, g1, g2, by omega, g4⟩
        · rintro ⟨a, b, g1, g2, g3, g4⟩; exact ⟨a, b, ⟨g1, g2, by omega⟩, g4⟩
      have e2 : (rowPass i (vals F s i) e).2 = false ↔ ¬ Improves (vals F s) i := by
        rw [← h2]; simp
      rw [e1, e2]
      constructor
      · rintro ⟨g1, g2, g3, g4⟩
        exact ⟨g3, g1, g2, (offRails_iff _ i g3 _ h1 (h3 g3)).mp g4⟩
      · rintro ⟨g3, g1, g2, g4⟩
        exact ⟨g1, g2, g3, (offRails_iff _ i g3 _ h1 (h3 g3)).mpr g4⟩
    rw [extLoop]
    simp only [hy, ht]
    by_cases hc : Stop (vals F s) i
    · rw [if_pos (hstop.mpr hc)]
      exact ⟨i + 1, by omega, by omega, fun _ => by omega, h1, rfl, fun k hk => hs k (by omega),
        Or.inr ⟨by omega, by simpa using hc⟩⟩
    · rw [if_neg (fun hh => hc (hstop.mp hh))]
      obtain ⟨m, g1, g2, _, g3, g4, g5, g6⟩ := ih (i + 1) _ h1 (fun k hk => by
        by_cases e : k = i
        · rw [e]; exact hc
        · exact hs k (by omega))
      exact ⟨m, by omega, by omega, fun _ => by omega, g3, g4, g5, by rcases g6 with g | g <;> [left; right] <;> [omega; exact g]⟩

theorem extrapolate_spec (F : S → ℝ → Option ℝ × S) (s : S) :
    ∃ m, 1 ≤ m ∧ m ≤ 400 ∧ (extrapolate F s).2.2 = m ∧ (extrapolate F s).2.1 = traj F s m ∧
      (∀ k, k + 1 < m → ¬ Stop (vals F s) k) ∧ (m = 400 ∨ Stop (vals F s) (m - 1)) ∧
      IsBest (vals F s) (Rows m) (extrapolate F s).1 := by
  obtain ⟨m, h1, h2, h3, h4, h5, h6, h7⟩ := extLoop_spec F s npts 0 extInit (extInit_inv _) (fun k hk => by omega)
  refine ⟨m, h3 (by decide), by simpa [npts] using h2, h4.calls, h5, h6, ?_, h4.best⟩
  rcases h7 with h | h
  · left; simpa [npts] using h
  · exact Or.inr h.2

end
end TooN.Deriv
