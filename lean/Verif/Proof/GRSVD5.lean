import Verif.Proof.GRSVD4
/-! # GR_SVD: cancellation and the QR sweep -/
set_option linter.unusedSectionVars false
set_option linter.unusedVariables false
namespace TooN.GRSVD
open Finset
open scoped Classical
noncomputable section

/-- `U`, `V` are transformed by products of rotations, and the form changes by at most `η` -/
def Trans (M N : Nat) (wU wV : Bool) (U V U' V' : Mat ℝ) (F F' : Vec ℝ → Vec ℝ → ℝ) (η : ℝ) : Prop :=
  ∃ TU TV, RowT N TU ∧ RowT N TV ∧ (∀ a, a < M → U' a = if wU then TU (U a) else U a) ∧
    (∀ b, b < N → V' b = if wV then TV (V b) else V b) ∧
    ∀ u v, sq N u ≤ 1 → sq N v ≤ 1 → |F u v - F' (TU u) (TV v)| ≤ η

section
variable {M N : Nat} {wU wV : Bool}

theorem Trans.refl (U V : Mat ℝ) {F F' : Vec ℝ → Vec ℝ → ℝ} {η : ℝ}
    (h : ∀ u v, sq N u ≤ 1 → sq N v ≤ 1 → |F u v - F' u v| ≤ η) : Trans M N wU wV U V U V F F' η :=
  ⟨_, _, .id, .id, fun _ _ => by split <;> rfl, fun _ _ => by split <;> rfl, h⟩

theorem Trans.trans {U V U' V' U'' V'' : Mat ℝ} {F F' F'' : Vec ℝ → Vec ℝ → ℝ} {η η' : ℝ}
    (h : Trans M N wU wV U V U' V' F F' η) (h' : Trans M N wU wV U' V' U'' V'' F' F'' η') :
    Trans M N wU wV U V U'' V'' F F'' (η + η') := by
  obtain ⟨TU, TV, a1, a2, a3, a4, a5⟩ := h
  obtain ⟨SU, SV, b1, b2, b3, b4, b5⟩ := h'
  refine ⟨_, _, b1.comp a1, b2.comp a2, fun a ha => ?_, fun b hb => ?_, fun u v hu hv => ?_⟩
  · rw [b3 a ha, a3 a ha]; split <;> rfl
  · rw [b4 b hb, a4 b hb]; split <;> rfl
  · have e1 := a5 u v hu hv
    have e2 := b5 (TU u) (TV v) (by rw [sq, a1.dot]; exact hu) (by rw [sq, a2.dot]; exact hv)
    calc |F u v - F'' (SU (TU u)) (SV (TV v))| = |(F u v - F' (TU u) (TV v)) + (F' (TU u) (TV v) - F'' (SU (TU u)) (SV (TV v)))| := by
          congr 1; ring
      _ ≤ _ := (abs_add_le _ _).trans (add_le_add e1 e2)

theorem Trans.mono {U V U' V' : Mat ℝ} {F F' : Vec ℝ → Vec ℝ → ℝ} {η η' : ℝ} (h : Trans M N wU wV U V U' V' F F' η)
    (hη : η ≤ η') : Trans M N wU wV U V U' V' F F' η' := by
  obtain ⟨TU, TV, a1, a2, a3, a4, a5⟩ := h
  exact ⟨TU, TV, a1, a2, a3, a4, fun u v hu hv => (a5 u v hu hv).trans hη⟩

theorem if_rotCols (w : Bool) (R p q : Nat) (hpq : p ≠ q) (c s : ℝ) (X : Mat ℝ) (a : Nat) (ha : a < R) :
    (if w then rotCols R p q c s X else X) a = if w then rotRow p q c s (X a) else X a := by
  split
  · exact rotCols_row R p q hpq c s X a ha
  · rfl

/-- row `p` during the sweep at `i1`: the matrix is bidiagonal except for the bulge -/
def swRow (l k i1 : Nat) (d e : Vec ℝ) (f x c s : ℝ) (v : Vec ℝ) (p : Nat) : ℝ :=
  if p = i1 then x * v i1 + c * (if i1 + 1 ≤ k then e (i1 + 1) else 0) * v (i1 + 1)
  else if p + 1 = i1 then
    d p * v p + (if l < i1 then f * v i1 + s * (if i1 + 1 ≤ k then e (i1 + 1) else 0) * v (i1 + 1) else 0)
  else d p * v p + (if p + 1 ≤ k ∧ p + 1 ≠ l then e (p + 1) else 0) * v (p + 1)

def swF (N l k i1 : Nat) (w : Sw) (u v : Vec ℝ) : ℝ :=
  ∑ p ∈ range N, u p * swRow l k i1 w.st.d w.st.e w.f w.x w.c w.s v p

theorem sqrt_cs {f h : ℝ} (hz : Real.sqrt (f * f + h * h) ≠ 0) :
    let z := Real.sqrt (f * f + h * h)
    f / z * (f / z) + h / z * (h / z) = 1 ∧ z * (f / z) = f ∧ z * (h / z) = h ∧ f / z * f + h / z * h = z ∧ -(h / z) * f + f / z * h = 0 := by
  intro z
  have e : z * z = f * f + h * h := Real.mul_self_sqrt (by nlinarith [mul_self_nonneg f, mul_self_nonneg h])
  have hz : z ≠ 0 := hz
  refine ⟨?_, ?_, ?_, ?_, ?_⟩
  · field_simp; linarith
  · field_simp
  · field_simp
  · field_simp; linarith
  · field_simp; ring

theorem sweepStep_spec (l k i1 : Nat) (hl : l ≤ i1) (hk : i1 < k) (hkN : k < N) (w : Sw) (hs : w.s ≠ 0) (he : w.st.e (i1 + 1) ≠ 0) :
    ∃ w', sweepStep M N wU wV i1 w = some w' ∧
      Trans M N wU wV w.st.U w.st.V w'.st.U w'.st.V (swF N l k i1 w) (swF N l k (i1 + 1) w') 0 ∧
      (∀ j, j ≠ i1 → w'.st.d j = w.st.d j ∧ w'.st.e j = w.st.e j) ∧ w'.st.nError = w.st.nError ∧ w'.st.nIter = w.st.nIter ∧
      (w.st.d (i1 + 1) ≠ 0 → w'.s ≠ 0) := by
  unfold sweepStep
  simp only
  have hh : w.s * w.st.e (i1 + 1) ≠ 0 := mul_ne_zero hs he
  have hz1 : Real.sqrt (w.f * w.f + w.s * w.st.e (i1 + 1) * (w.s * w.st.e (i1 + 1))) ≠ 0 := by
    refine (Real.sqrt_pos.mpr ?_).ne'
    have := mul_self_pos.mpr hh
    nlinarith [mul_self_nonneg w.f]
  rw [if_neg hz1]
  obtain ⟨q1, q2, q3, q4, q5⟩ := sqrt_cs hz1
  have q6 : w.s * w.st.e (i1 + 1) / Real.sqrt (w.f * w.f + w.s * w.st.e (i1 + 1) * (w.s * w.st.e (i1 + 1))) ≠ 0 := div_ne_zero hh hz1
  generalize Real.sqrt (w.f * w.f + w.s * w.st.e (i1 + 1) * (w.s * w.st.e (i1 + 1))) = z at *
  generalize w.f / z = c at *
  generalize w.s * w.st.e (i1 + 1) / z = s at *
  -- second rotation
  have hrot : ∃ z' c' s', Real.sqrt ((w.x * c + w.c * w.st.e (i1 + 1) * s) * (w.x * c + w.c * w.st.e (i1 + 1) * s) +
        w.st.d (i1 + 1) * s * (w.st.d (i1 + 1) * s)) = z' ∧
      (if z' ≠ 0 then (w.x * c + w.c * w.st.e (i1 + 1) * s) / z' else c) = c' ∧
      (if z' ≠ 0 then w.st.d (i1 + 1) * s / z' else s) = s' ∧ c' * c' + s' * s' = 1 ∧
      c' * (w.x * c + w.c * w.st.e (i1 + 1) * s) + s' * (w.st.d (i1 + 1) * s) = z' ∧
      -s' * (w.x * c + w.c * w.st.e (i1 + 1) * s) + c' * (w.st.d (i1 + 1) * s) = 0 ∧ (w.st.d (i1 + 1) ≠ 0 → s' ≠ 0) := by
    generalize w.x * c + w.c * w.st.e (i1 + 1) * s = f'
    by_cases hz : Real.sqrt (f' * f' + w.st.d (i1 + 1) * s * (w.st.d (i1 + 1) * s)) = 0
    · have h0 : f' * f' + w.st.d (i1 + 1) * s * (w.st.d (i1 + 1) * s) = 0 := by
        refine (Real.sqrt_eq_zero (by nlinarith [mul_self_nonneg f', mul_self_nonneg (w.st.d (i1 + 1) * s)])).mp hz
      have h1 : f' = 0 := by nlinarith [mul_self_nonneg f', mul_self_nonneg (w.st.d (i1 + 1) * s)]
      have h2 : w.st.d (i1 + 1) * s = 0 := by nlinarith [mul_self_nonneg f', mul_self_nonneg (w.st.d (i1 + 1) * s)]
      refine ⟨0, c, s, hz, by simp, by simp, q1, by rw [h1, h2]; ring, by rw [h1, h2]; ring, fun _ => q6⟩
    · obtain ⟨p1, p2, p3, p4, p5⟩ := sqrt_cs hz
      exact ⟨_, _, _, rfl, if_pos hz, if_pos hz, p1, p4, p5, fun hd => div_ne_zero (mul_ne_zero hd q6) hz⟩
  obtain ⟨z', c', s', r1, r2, r3, r4, r5, r6, r7⟩ := hrot
  rw [r1, r2, r3]
  refine ⟨_, rfl, ?_, ?_, rfl, rfl, r7⟩
  · refine ⟨_, _, .rot i1 (i1 + 1) c' s' (by omega) (by omega) (by omega) r4 .id, .rot i1 (i1 + 1) c s (by omega) (by omega) (by omega) q1 .id,
      fun a ha => if_rotCols _ _ _ _ (by omega) _ _ _ _ ha, fun b hb => if_rotCols _ _ _ _ (by omega) _ _ _ _ hb, ?_⟩
    intro u v _ _
    apply le_of_eq
    rw [abs_eq_zero, sub_eq_zero]
    symm
    have vi1 : rotRow i1 (i1 + 1) c s v i1 = v i1 * c + v (i1 + 1) * s := by simp [rotRow]
    have vi : rotRow i1 (i1 + 1) c s v (i1 + 1) = -v i1 * s + v (i1 + 1) * c := by simp [rotRow]
    have vo : ∀ j, j ≠ i1 → j ≠ i1 + 1 → rotRow i1 (i1 + 1) c s v j = v j := by
      intro j h1 h2; simp [rotRow, h1, h2]
    refine rot_form N i1 (i1 + 1) (by omega) (by omega) (by omega) c' s' r4 u _ _ ?_ ?_ ?_
    · intro j h1 h2
      simp only [swRow]
      rw [if_neg h2, if_neg (show ¬ j + 1 = i1 + 1 by omega), if_neg h1]
      by_cases hj : j + 1 = i1
      · rw [if_pos hj, hj, vi1, Vec.set_ne _ _ _ _ (show j ≠ i1 by omega), vo j (by omega) (by omega), Vec.set_self, if_pos (show i1 + 1 ≤ k by omega)]
        by_cases hl' : l < i1
        · rw [if_pos hl', if_pos (by omega)]
          linear_combination v i1 * q2 + v (i1 + 1) * q3
        · rw [if_neg hl', if_neg (by omega)]; ring
      · rw [if_neg hj, Vec.set_ne _ _ _ _ h1, Vec.set_ne _ _ _ _ hj, vo j h1 h2, vo (j + 1) hj (by omega)]
    · simp only [swRow]
      rw [if_neg (show ¬ i1 = i1 + 1 by omega)]
      simp only [if_true]
      rw [if_neg (show ¬ i1 + 1 = i1 by omega), if_neg (show ¬ i1 + 1 + 1 = i1 by omega), if_pos (show l < i1 + 1 by omega), Vec.set_self, vi1, vi,
        vo (i1 + 1 + 1) (by omega) (by omega), Vec.set_ne _ _ _ _ (show i1 + 1 + 1 ≠ i1 by omega), if_pos (show i1 + 1 ≤ k by omega)]
      simp only [show ¬ i1 + 1 + 1 = l by omega, ne_eq, not_false_eq_true, and_true]
      generalize (if i1 + 1 + 1 ≤ k then w.st.e (i1 + 1 + 1) else 0) = ee
      rw [← r5]
      linear_combination (c' * (w.x * v i1 + w.c * w.st.e (i1 + 1) * v (i1 + 1)) + s' * w.st.d (i1 + 1) * v (i1 + 1)) * q1
    · simp only [swRow]
      simp only [if_true]
      rw [if_neg (show ¬ i1 + 1 = i1 by omega), if_neg (show ¬ i1 + 1 + 1 = i1 by omega), vi,
        vo (i1 + 1 + 1) (by omega) (by omega), Vec.set_ne _ _ _ _ (show i1 + 1 + 1 ≠ i1 by omega), if_pos (show i1 + 1 ≤ k by omega)]
      simp only [show ¬ i1 + 1 + 1 = l by omega, ne_eq, not_false_eq_true, and_true]
      generalize (if i1 + 1 + 1 ≤ k then w.st.e (i1 + 1 + 1) else 0) = ee
      linear_combination (-s' * (w.x * v i1 + w.c * w.st.e (i1 + 1) * v (i1 + 1)) + c' * w.st.d (i1 + 1) * v (i1 + 1)) * q1 - (v i1 * c + v (i1 + 1) * s) * r6
  · intro j hj
    exact ⟨Vec.set_ne _ _ _ _ hj, Vec.set_ne _ _ _ _ hj⟩
end
end
end TooN.GRSVD
