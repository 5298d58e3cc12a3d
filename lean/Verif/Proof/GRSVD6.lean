import Verif.Proof.GRSVD5
/-! # GR_SVD: one call of `Diagonalize_SubLoop` -/
set_option linter.unusedSectionVars false
set_option linter.unusedVariables false
namespace TooN.GRSVD
open Finset
open scoped Classical
noncomputable section
section
variable {M N : Nat} {wU wV : Bool}

/-- the form without the entry `e l` -/
def rowL (l k : Nat) (d e v : Vec ℝ) (p : Nat) : ℝ := d p * v p + (if p + 1 ≤ k ∧ p + 1 ≠ l then e (p + 1) else 0) * v (p + 1)
def formL (N l k : Nat) (d e u v : Vec ℝ) : ℝ := ∑ p ∈ range N, u p * rowL l k d e v p

theorem line565_spec (l k : Nat) (hl : l ≤ k) (hk : k < N) (st : St) (hd : ∀ j, l ≤ j → j < k → st.d j ≠ 0)
    (he : ∀ j, l < j → j ≤ k → st.e j ≠ 0) :
    (l = k ∧ line565 M N wU wV l k st = some (true, st.d k, st)) ∨
    (l < k ∧ st.nIter = 30 ∧ line565 M N wU wV l k st = some (true, st.d k, { st with nError := k })) ∨
    (l < k ∧ st.nIter ≠ 30 ∧ ∃ z st', line565 M N wU wV l k st = some (false, z, st') ∧ st'.nIter = st.nIter + 1 ∧
      st'.nError = st.nError ∧ Trans M N wU wV st.U st.V st'.U st'.V (formL N l k st.d st.e) (form N k st'.d st'.e) 0 ∧
      (∀ j, k < j → st'.d j = st.d j ∧ st'.e j = st.e j) ∧ (∀ j, j < l → st'.d j = st.d j ∧ st'.e j = st.e j) ∧ st'.e l = 0) := by
  by_cases h1 : l = k
  · exact Or.inl ⟨h1, by simp [line565, h1]⟩
  have hlk : l < k := by omega
  by_cases h2 : st.nIter = 30
  · exact Or.inr (Or.inl ⟨hlk, h2, by simp [line565, h1, h2]⟩)
  refine Or.inr (Or.inr ⟨hlk, h2, ?_⟩)
  unfold line565
  simp only
  rw [if_neg h1, if_neg h2, if_neg (mul_ne_zero (mul_ne_zero two_ne_zero (he k hlk le_rfl)) (hd (k - 1) (by omega) (by omega)))]
  generalize ((st.d (k - 1) - st.d k) * (st.d (k - 1) + st.d k) + (st.e (k - 1) - st.e k) * (st.e (k - 1) + st.e k)) / (2 * st.e k * st.d (k - 1)) = f0
  have hf : f0 + (if f0 ≥ 0 then Real.sqrt (f0 * f0 + 1) else -Real.sqrt (f0 * f0 + 1)) ≠ 0 := by
    have : 0 < Real.sqrt (f0 * f0 + 1) := Real.sqrt_pos.mpr (by nlinarith [mul_self_nonneg f0])
    split
    · linarith
    · intro h; push Not at *; linarith
  rw [if_neg hf, if_neg (hd l le_rfl hlk)]
  generalize (((st.d l - st.d k) * (st.d l + st.d k) + st.e k * (st.d (k - 1) / (f0 + (if f0 ≥ 0 then Real.sqrt (f0 * f0 + 1) else -Real.sqrt (f0 * f0 + 1))) - st.e k)) / st.d l) = f1
  obtain ⟨w, hw, hI⟩ := forRangeM_total (fun i1 (w : Sw) =>
      Trans M N wU wV st.U st.V w.st.U w.st.V (formL N l k st.d st.e) (swF N l k i1 w) 0 ∧
      (∀ j, j < l ∨ i1 ≤ j → w.st.d j = st.d j ∧ w.st.e j = st.e j) ∧ w.st.nError = st.nError ∧ w.st.nIter = st.nIter + 1 ∧
      (i1 < k → w.s ≠ 0)) l k hl (sweepStep M N wU wV)
    { st := { st with nIter := st.nIter + 1 }, f := f1, x := st.d l, c := 1, s := 1 } ⟨by
      refine Trans.refl _ _ (fun u v _ _ => le_of_eq ?_)
      rw [abs_eq_zero, sub_eq_zero]
      refine Finset.sum_congr rfl (fun p _ => ?_)
      congr 1
      simp only [rowL, swRow]
      by_cases e1 : p = l
      · subst e1; simp only [if_true, one_mul]; simp
      · rw [if_neg e1]
        by_cases e2 : p + 1 = l
        · rw [if_neg (by omega), if_pos e2, if_neg (by omega)]; ring
        · rw [if_neg e2], fun _ _ => ⟨rfl, rfl⟩, rfl, rfl, fun _ => one_ne_zero⟩ (by
      intro i1 w h3 h4 ⟨a1, a2, a3, a4, a5⟩
      have hee : w.st.e (i1 + 1) ≠ 0 := by rw [(a2 (i1 + 1) (by omega)).2]; exact he _ (by omega) (by omega)
      obtain ⟨w', b1, b2, b3, b4, b5, b6⟩ := sweepStep_spec (M := M) (N := N) (wU := wU) (wV := wV) l k i1 h3 h4 hk w (a5 h4) hee
      refine ⟨w', b1, by simpa using a1.trans b2, ?_, by rw [b4, a3], by rw [b5, a4], ?_⟩
      · intro j hj
        have := b3 j (by omega)
        rw [this.1, this.2]
        exact a2 j (by omega)
      · intro h5
        apply b6
        rw [(a2 (i1 + 1) (by omega)).1]
        exact hd _ (by omega) h5)
  obtain ⟨a1, a2, a3, a4, a5⟩ := hI
  rw [hw]
  refine ⟨_, _, rfl, a4, a3, ?_, ?_, ?_, ?_⟩
  · have := a1.trans (Trans.refl (M := M) (N := N) (wU := wU) (wV := wV) w.st.U w.st.V (F := swF N l k k w) (F' := form N k (Vec.set w.st.d k w.x) (Vec.set (Vec.set w.st.e l 0) k w.f)) (η := 0) ?_)
    · simpa using this
    · intro u v _ _
      apply le_of_eq
      rw [abs_eq_zero, sub_eq_zero]
      refine Finset.sum_congr rfl (fun p _ => ?_)
      congr 1
      simp only [row, swRow]
      by_cases e1 : p = k
      · subst e1
        simp only [if_true]
        rw [if_neg (by omega), if_neg (by omega), Vec.set_self]; ring
      · rw [if_neg e1, Vec.set_ne _ _ _ _ e1]
        by_cases e2 : p + 1 = k
        · rw [if_pos e2, if_pos hlk, if_pos (show p + 1 ≤ k by omega), if_neg (show ¬ k + 1 ≤ k by omega), e2, Vec.set_self]; ring
        · rw [if_neg e2, Vec.set_ne _ _ _ _ e2]
          by_cases e3 : p + 1 = l
          · rw [if_neg (by omega), e3, Vec.set_self]; split <;> rfl
          · rw [Vec.set_ne _ _ _ _ e3]
            by_cases e4 : p + 1 ≤ k
            · rw [if_pos ⟨e4, e3⟩, if_pos e4]
            · rw [if_neg (by omega), if_neg e4]
  · intro j hj
    have := a2 j (by omega)
    simp only
    rw [Vec.set_ne _ _ _ _ (by omega), Vec.set_ne _ _ _ _ (by omega), Vec.set_ne _ _ _ _ (by omega)]
    exact this
  · intro j hj
    have := a2 j (by omega)
    simp only
    rw [Vec.set_ne _ _ _ _ (by omega), Vec.set_ne _ _ _ _ (by omega), Vec.set_ne _ _ _ _ (by omega)]
    exact this
  · simp only
    rw [Vec.set_ne _ _ _ _ (by omega), Vec.set_self]

/-- the form without the entry `d l1` -/
def rowD (l1 k : Nat) (d e v : Vec ℝ) (p : Nat) : ℝ :=
  (if p = l1 then 0 else d p * v p) + (if p + 1 ≤ k then e (p + 1) else 0) * v (p + 1)
def formD (N l1 k : Nat) (d e u v : Vec ℝ) : ℝ := ∑ p ∈ range N, u p * rowD l1 k d e v p

/-- the rows during the cancellation at `i` -/
def cRow (l1 k i : Nat) (c s : ℝ) (d e v : Vec ℝ) (p : Nat) : ℝ :=
  (if p = l1 then 0 else d p * v p) + (if p + 1 ≤ k then (if p + 1 = i then c * e i else e (p + 1)) else 0) * v (p + 1) +
    (if p = l1 ∧ i ≤ k then s * e i * v i else 0)
def cF (N l1 k i : Nat) (c s : ℝ) (d e u v : Vec ℝ) : ℝ := ∑ p ∈ range N, u p * cRow l1 k i c s d e v p

theorem cancelLoop_spec (negl : ℝ → Prop) (ε : ℝ) (hn0 : negl 0) (hε : ∀ x, negl x → x ≤ ε) (l1 k : Nat) (hk : k < N) :
    ∀ n i c s (st : St), l1 + 1 ≤ i → i + n = k + 1 → (i = l1 + 1 → c = 0) → (l1 + 1 < i → (i ≤ k → c ≠ 0) ∧ st.e (l1 + 1) = 0) →
      (∀ j, l1 + 1 ≤ j → j < k → st.d j ≠ 0) → (∀ j, l1 + 1 < j → j ≤ k → st.e j ≠ 0) →
      ∃ st', cancelLoop M wU negl l1 n i c s st = some st' ∧
        Trans M N wU wV st.U st.V st'.U st'.V (cF N l1 k i c s st.d st.e) (formD N l1 k st'.d st'.e) ε ∧
        (i ≤ k ∨ l1 + 1 < i → st'.e (l1 + 1) = 0) ∧ st'.nError = st.nError ∧ st'.nIter = st.nIter ∧
        (∀ j, j ≤ l1 ∨ k < j → st'.d j = st.d j ∧ st'.e j = st.e j) ∧
        (∀ j, l1 + 1 ≤ j → j < k → st'.d j ≠ 0) ∧ (∀ j, l1 + 1 < j → j ≤ k → st'.e j ≠ 0) := by
  have hε0 : 0 ≤ ε := hε 0 hn0
  intro n
  induction n with
  | zero =>
    intro i c s st h1 h2 h3 h4 h5 h6
    refine ⟨st, rfl, ?_, fun h => (h4 (by omega)).2, rfl, rfl, fun _ _ => ⟨rfl, rfl⟩, h5, h6⟩
    refine Trans.refl _ _ (fun u v _ _ => ?_)
    rw [show cF N l1 k i c s st.d st.e u v - formD N l1 k st.d st.e u v = 0 from ?_, abs_zero]
    · exact hε0
    rw [sub_eq_zero]
    refine Finset.sum_congr rfl (fun p _ => ?_)
    congr 1
    simp only [cRow, rowD]
    rw [if_neg (show ¬ (p = l1 ∧ i ≤ k) by omega), add_zero]
    by_cases e : p + 1 ≤ k
    · rw [if_pos e, if_pos e, if_neg (show ¬ p + 1 = i by omega)]
    · rw [if_neg e, if_neg e]
  | succ n ih =>
    intro i c s st h1 h2 h3 h4 h5 h6
    rw [cancelLoop]
    simp only
    have hel : (Vec.set st.e i (st.e i * c)) (l1 + 1) = 0 := by
      by_cases e : i = l1 + 1
      · rw [← e, Vec.set_self, h3 e, mul_zero]
      · rw [Vec.set_ne _ _ _ _ (by omega)]; exact (h4 (by omega)).2
    have he' : ∀ j, l1 + 1 < j → j ≤ k → (Vec.set st.e i (st.e i * c)) j ≠ 0 := by
      intro j h7 h8
      by_cases e : j = i
      · rw [e, Vec.set_self]
        exact mul_ne_zero (h6 i (by omega) (by omega)) ((h4 (by omega)).1 (by omega))
      · rw [Vec.set_ne _ _ _ _ e]; exact h6 j h7 h8
    have hrow : ∀ v p, cRow l1 k i c s st.d st.e v p =
        rowD l1 k st.d (Vec.set st.e i (st.e i * c)) v p + (if p = l1 then s * st.e i * v i else 0) := by
      intro v p
      simp only [cRow, rowD]
      congr 1
      · congr 2
        by_cases e : p + 1 = i
        · rw [if_pos e, e, Vec.set_self, mul_comm]
        · rw [if_neg e, Vec.set_ne _ _ _ _ e]
      · by_cases e : p = l1
        · rw [if_pos ⟨e, by omega⟩, if_pos e]
        · rw [if_neg (by omega), if_neg e]
    by_cases hng : negl |s * st.e i|
    · rw [if_pos hng]
      refine ⟨_, rfl, ?_, fun _ => hel, rfl, rfl, fun j hj => ⟨rfl, Vec.set_ne _ _ _ _ (by omega)⟩, h5, he'⟩
      refine Trans.refl _ _ (fun u v hu hv => ?_)
      refine drop_err N l1 i (by omega) (by omega) (s * st.e i) ε (hε _ hng) u v _ _ hu hv ?_ ?_
      · intro p hp; rw [hrow, if_neg hp, add_zero]
      · rw [hrow, if_pos rfl]
    · rw [if_neg hng]
      have hf : s * st.e i ≠ 0 := by
        intro h; rw [h, abs_zero] at hng; exact hng hn0
      have hh : Real.sqrt (s * st.e i * (s * st.e i) + st.d i * st.d i) ≠ 0 := by
        refine (Real.sqrt_pos.mpr ?_).ne'
        have := mul_self_pos.mpr hf
        nlinarith [mul_self_nonneg (st.d i)]
      rw [if_neg hh]
      have hm : Real.sqrt (s * st.e i * (s * st.e i) + st.d i * st.d i) * Real.sqrt (s * st.e i * (s * st.e i) + st.d i * st.d i) =
          s * st.e i * (s * st.e i) + st.d i * st.d i :=
        Real.mul_self_sqrt (by nlinarith [mul_self_nonneg (s * st.e i), mul_self_nonneg (st.d i)])
      generalize Real.sqrt (s * st.e i * (s * st.e i) + st.d i * st.d i) = h at *
      have hc1 : st.d i / h * (st.d i / h) + -(s * st.e i) / h * (-(s * st.e i) / h) = 1 := by field_simp; linarith
      have hc2 : st.d i / h * (s * st.e i) + -(s * st.e i) / h * st.d i = 0 := by field_simp; ring
      have hc3 : -(-(s * st.e i) / h) * (s * st.e i) + st.d i / h * st.d i = h := by field_simp; linarith
      have hc4 : i < k → st.d i / h ≠ 0 := fun hik => div_ne_zero (h5 i (by omega) hik) hh
      generalize st.d i / h = c' at *
      generalize -(s * st.e i) / h = s' at *
      obtain ⟨st', b1, b2, b3, b4, b5, b6, b7, b8⟩ := ih (i + 1) c' s'
        { st with d := Vec.set st.d i h, e := Vec.set st.e i (st.e i * c), U := if wU then rotCols M l1 i c' s' st.U else st.U }
        (by omega) (by omega) (by omega) (fun _ => ⟨fun hik => hc4 (by omega), hel⟩) (by
          intro j h7 h8
          by_cases e : j = i
          · show Vec.set st.d i h j ≠ 0
            rw [e, Vec.set_self]; exact hh
          · show Vec.set st.d i h j ≠ 0
            rw [Vec.set_ne _ _ _ _ e]; exact h5 j h7 h8) he'
      refine ⟨st', b1, ?_, fun _ => b3 (by omega), b4, b5, ?_, b7, b8⟩
      · rw [← zero_add ε]
        refine Trans.trans ?_ b2
        refine ⟨_, _, .rot l1 i c' s' (by omega) (by omega) (by omega) hc1 .id, .id,
          fun a ha => if_rotCols _ _ _ _ (by omega) _ _ _ _ ha, fun b hb => by cases wV <;> rfl, ?_⟩
        intro u v _ _
        apply le_of_eq
        rw [abs_eq_zero, sub_eq_zero]
        symm
        refine rot_form N l1 i (by omega) (by omega) (by omega) c' s' hc1 u _ _ ?_ ?_ ?_
        · intro j h7 h8
          rw [hrow]
          simp only [cRow, rowD, h7, if_false, false_and, Vec.set_ne _ _ _ _ h8, show ¬ j + 1 = i + 1 by omega]
        · rw [hrow, hrow]
          simp only [cRow, rowD, if_true, if_false, true_and, show ¬ i = l1 by omega, show ¬ l1 + 1 = i + 1 by omega, hel, ite_self,
            Vec.set_ne _ _ _ _ (show i + 1 ≠ i by omega)]
          by_cases e : i + 1 ≤ k
          · rw [if_pos e, if_pos e]
            linear_combination - v i * hc2
          · rw [if_neg e, if_neg e]
            linear_combination - v i * hc2
        · rw [hrow, hrow]
          simp only [cRow, rowD, if_true, if_false, true_and, false_and, show ¬ i = l1 by omega, hel, ite_self, Vec.set_self,
            Vec.set_ne _ _ _ _ (show i + 1 ≠ i by omega)]
          by_cases e : i + 1 ≤ k
          · rw [if_pos e, if_pos e]
            linear_combination - v i * hc3
          · rw [if_neg e, if_neg e]
            linear_combination - v i * hc3
      · intro j hj
        have := b6 j hj
        simp only at this
        rw [Vec.set_ne _ _ _ _ (by omega), Vec.set_ne _ _ _ _ (by omega)] at this
        exact this
end
end
end TooN.GRSVD
