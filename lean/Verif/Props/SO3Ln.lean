import Verif.Props.SO3
/-!
# C35: SO3 ln;  C36: coerce and the two-vector constructor
-/
set_option linter.unusedSectionVars false
namespace TooN.Lie
open Matrix

/-- cosine of the rotation angle, as computed by `ln` -/
noncomputable def cosA (m : M 3) : ℝ := (m 0 0 + m 1 1 + m 2 2 - 1) / 2
/-- antisymmetric part, as computed by `ln` -/
noncomputable def antiV (m : M 3) : V 3 := ![(m 2 1 - m 1 2) / 2, (m 0 2 - m 2 0) / 2, (m 1 0 - m 0 1) / 2]
/-- symmetric part minus `cos·1` -/
noncomputable def symN (m : M 3) (i j : Fin 3) : ℝ := (m i j + m j i) / 2 - if i = j then cosA m else 0

theorem symN_symm (m : M 3) (i j : Fin 3) : symN m i j = symN m j i := by
  unfold symN; rw [add_comm]; simp only [eq_comm]

theorem anti_sq {m : M 3} (h : IsRot m) : antiV m ⬝ᵥ antiV m = 1 - cosA m * cosA m := by
  have hc := rot3_cofactors h
  have c : ∀ i j, m j i = adjugate m i j := fun i j => by rw [hc]; rfl
  have c00 := c 0 0; have c11 := c 1 1; have c22 := c 2 2
  rw [adjugate_fin_three] at c00 c11 c22
  simp at c00 c11 c22
  have r0 := congrFun (congrFun h.orth 0) 0
  have r1 := congrFun (congrFun h.orth 1) 1
  have r2 := congrFun (congrFun h.orth 2) 2
  simp [Matrix.mul_apply, Fin.sum_univ_three] at r0 r1 r2
  rw [dot3]
  simp [antiV, cosA]
  linear_combination (1/4) * (r0 + r1 + r2) - (1/2) * (c00 + c11 + c22)

theorem anti_outer {m : M 3} (h : IsRot m) (i j : Fin 3) : antiV m i * antiV m j = (1 + cosA m) * symN m i j := by
  have hc := rot3_cofactors h
  have c : ∀ i j, m j i = adjugate m i j := fun i j => by rw [hc]; rfl
  have c00 := c 0 0; have c01 := c 0 1; have c02 := c 0 2
  have c10 := c 1 0; have c11 := c 1 1; have c12 := c 1 2
  have c20 := c 2 0; have c21 := c 2 1; have c22 := c 2 2
  rw [adjugate_fin_three] at c00 c01 c02 c10 c11 c12 c20 c21 c22
  simp at c00 c01 c02 c10 c11 c12 c20 c21 c22
  have r : ∀ i j, m i 0 * m j 0 + m i 1 * m j 1 + m i 2 * m j 2 = (1 : M 3) i j := by
    intro i j; have := congrFun (congrFun h.orth i) j; simpa [Matrix.mul_apply, Fin.sum_univ_three] using this
  have k : ∀ i j, m 0 i * m 0 j + m 1 i * m 1 j + m 2 i * m 2 j = (1 : M 3) i j := by
    intro i j; have := congrFun (congrFun h.orth' i) j; simpa [Matrix.mul_apply, Fin.sum_univ_three] using this
  have r00 := r 0 0; have r11 := r 1 1; have r22 := r 2 2; have r01 := r 0 1; have r02 := r 0 2; have r12 := r 1 2
  have k00 := k 0 0; have k11 := k 1 1; have k22 := k 2 2; have k01 := k 0 1; have k02 := k 0 2; have k12 := k 1 2
  simp at r00 r11 r22 r01 r02 r12 k00 k11 k22 k01 k02 k12
  fin_cases i <;> fin_cases j <;> simp [antiV, cosA, symN]
  · linear_combination (1/4) * (r11 + r22 - k00) - (1/2) * c00
  · linear_combination (-1/4) * (r01 + k01) - (1/4) * (c01 + c10)
  · linear_combination (-1/4) * (r02 + k02) - (1/4) * (c02 + c20)
  · linear_combination (-1/4) * (r01 + k01) - (1/4) * (c01 + c10)
  · linear_combination (1/4) * (r00 + r22 - k11) - (1/2) * c11
  · linear_combination (-1/4) * (r12 + k12) - (1/4) * (c12 + c21)
  · linear_combination (-1/4) * (r02 + k02) - (1/4) * (c02 + c20)
  · linear_combination (-1/4) * (r12 + k12) - (1/4) * (c12 + c21)
  · linear_combination (1/4) * (r00 + r11 - k22) - (1/2) * c22

theorem symN_trace (m : M 3) : symN m 0 0 + symN m 1 1 + symN m 2 2 = 1 - cosA m := by
  simp [symN, cosA]; ring

/-- the symmetric part is of rank one -/
theorem symN_rank {m : M 3} (h : IsRot m) (i j k : Fin 3) : symN m i j * symN m k k = symN m i k * symN m j k := by
  by_cases hc : 1 + cosA m = 0
  · have hz : ∀ i, antiV m i = 0 := by
      intro i; have := anti_outer h i i; rw [hc, zero_mul] at this; exact mul_self_eq_zero.1 this
    have s0 : m 2 1 = m 1 2 := by have := hz 0; simp [antiV] at this; linarith
    have s1 : m 0 2 = m 2 0 := by have := hz 1; simp [antiV] at this; linarith
    have s2 : m 1 0 = m 0 1 := by have := hz 2; simp [antiV] at this; linarith
    have hf := rot3_cofactors h
    have c : ∀ i j, m j i = adjugate m i j := fun i j => by rw [hf]; rfl
    have c00 := c 0 0; have c01 := c 0 1; have c02 := c 0 2
    have c11 := c 1 1; have c12 := c 1 2; have c22 := c 2 2
    rw [adjugate_fin_three] at c00 c01 c02 c11 c12 c22
    simp at c00 c01 c02 c11 c12 c22
    simp only [s0, s1, s2] at c00 c01 c02 c11 c12 c22
    have hc' : cosA m = -1 := by linarith
    have ht : m 0 0 + m 1 1 + m 2 2 = -1 := by unfold cosA at hc'; linarith
    have d0 : symN m 0 0 = m 0 0 + 1 := by simp [symN, hc']
    have d1 : symN m 1 1 = m 1 1 + 1 := by simp [symN, hc']
    have d2 : symN m 2 2 = m 2 2 + 1 := by simp [symN, hc']
    have o01 : symN m 0 1 = m 0 1 := by simp [symN, s2]
    have o10 : symN m 1 0 = m 0 1 := by simp [symN, s2]
    have o02 : symN m 0 2 = m 2 0 := by simp [symN, s1]
    have o20 : symN m 2 0 = m 2 0 := by simp [symN, s1]
    have o12 : symN m 1 2 = m 1 2 := by simp [symN, s0]
    have o21 : symN m 2 1 = m 1 2 := by simp [symN, s0]
    fin_cases i <;> fin_cases j <;> fin_cases k <;> simp only [Fin.zero_eta, Fin.mk_one, Fin.reduceFinMk, d0, d1, d2, o01, o10, o02, o20, o12, o21]
    all_goals
      first
      | ring1
      | linear_combination ht - c22
      | linear_combination ht - c11
      | linear_combination ht - c00
      | linear_combination c12
      | linear_combination c01
      | linear_combination c02
      | linear_combination -c12
      | linear_combination -c01
      | linear_combination -c02
  · have h1 := anti_outer h i j
    have h2 := anti_outer h k k
    have h3 := anti_outer h i k
    have h4 := anti_outer h j k
    apply mul_left_cancel₀ (mul_ne_zero hc hc)
    linear_combination (-(antiV m k * antiV m k)) * h1 - (1 + cosA m) * symN m i j * h2 + antiV m j * antiV m k * h3 +
      (1 + cosA m) * symN m i k * h4

/-- axis and angle determine the rotation -/
theorem exp_of_axis_angle {m : M 3} (u : V 3) (θ : ℝ) (hu : u ⬝ᵥ u = 1) (hc : Real.cos θ = cosA m)
    (ha : antiV m = Real.sin θ • u) (hN : ∀ i j, symN m i j = (1 - cosA m) * (u i * u j)) :
    NormedSpace.exp (skew (θ • u)) = m := by
  rw [dot3] at hu
  have key : NormedSpace.exp (skew (θ • u)) = 1 + Real.sin θ • skew u + (1 - Real.cos θ) • (skew u * skew u) := by
    have hsk : skew (θ • u) = θ • skew u := by
      ext i j; fin_cases i <;> fin_cases j <;> simp [skew]
    by_cases h0 : θ = 0
    · subst h0; rw [hsk]; simp [NormedSpace.exp_zero]
    · rw [exp_skew (θ • u) θ (by simp; linear_combination (-(θ * θ)) * hu) h0, hsk]
      simp only [Matrix.smul_mul, Matrix.mul_smul, smul_smul]
      congr 2
      · congr 1; field_simp
      · field_simp
  rw [key]
  have a0 := congrFun ha 0; have a1 := congrFun ha 1; have a2 := congrFun ha 2
  simp [antiV] at a0 a1 a2
  have n00 := hN 0 0; have n11 := hN 1 1; have n22 := hN 2 2
  have n01 := hN 0 1; have n02 := hN 0 2; have n12 := hN 1 2
  simp [symN] at n00 n11 n22 n01 n02 n12
  rw [hc]
  ext i j
  fin_cases i <;> fin_cases j <;> simp [skew, Matrix.mul_apply, Fin.sum_univ_three]
  · linear_combination (-1) * n00 + (cosA m - 1) * hu
  · linear_combination (-1) * n01 + a2
  · linear_combination (-1) * n02 - a1
  · linear_combination (-1) * n01 - a2
  · linear_combination (-1) * n11 + (cosA m - 1) * hu
  · linear_combination (-1) * n12 + a0
  · linear_combination (-1) * n02 + a1
  · linear_combination (-1) * n12 - a0
  · linear_combination (-1) * n22 + (cosA m - 1) * hu

theorem sqrt_half : 0 < mSqrt1_2 ∧ mSqrt1_2 < 1 ∧ mSqrt1_2 * mSqrt1_2 = 1 / 2 := by
  unfold mSqrt1_2
  have h := Real.mul_self_sqrt (show (0:ℝ) ≤ 1 / 2 by norm_num)
  have p := Real.sqrt_pos.2 (show (0:ℝ) < 1 / 2 by norm_num)
  exact ⟨p, by nlinarith, h⟩

theorem lnColumn_eq (m : M 3) : ∃ k, lnColumn m (cosA m) = (fun i => symN m i k) ∧
    ∀ i, symN m i i * symN m i i ≤ symN m k k * symN m k k := by
  have d0 : symN m 0 0 = m 0 0 - cosA m := by simp [symN]
  have d1 : symN m 1 1 = m 1 1 - cosA m := by simp [symN]
  have d2 : symN m 2 2 = m 2 2 - cosA m := by simp [symN]
  unfold lnColumn
  simp only
  rw [← d0, ← d1, ← d2]
  split_ifs with h1 h2
  · refine ⟨0, ?_, ?_⟩
    · funext i; fin_cases i <;> simp [symN] ; ring
    · intro i; fin_cases i
      · exact le_refl _
      · exact h1.1.le
      · exact h1.2.le
  · refine ⟨1, ?_, ?_⟩
    · funext i; fin_cases i <;> simp [symN]; ring
    · intro i; fin_cases i
      · rw [not_and_or] at h1
        rcases h1 with h1 | h1
        · exact not_lt.1 h1
        · exact le_trans (not_lt.1 h1) h2.le
      · exact le_refl _
      · exact h2.le
  · refine ⟨2, ?_, ?_⟩
    · funext i; fin_cases i <;> simp [symN]; ring
    · intro i; fin_cases i
      · rw [not_and_or] at h1
        rcases h1 with h1 | h1
        · exact le_trans (not_lt.1 h1) (not_lt.1 h2)
        · exact not_lt.1 h1
      · exact not_lt.1 h2
      · exact le_refl _

/-- the axis and angle computed by `ln` -/
theorem ln_axis_angle (m : M 3) (h : IsRot m) :
    ∃ (u : V 3) (θ : ℝ), so3Ln m = some (θ • u) ∧ 0 ≤ θ ∧ θ ≤ Real.pi ∧ NormedSpace.exp (skew (θ • u)) = m ∧
      ((θ • u) ⬝ᵥ (θ • u) = θ * θ) := by
  have hsq := anti_sq h
  have hnn := dot_self_nonneg (antiV m)
  have hs := Real.mul_self_sqrt hnn
  have hsn := Real.sqrt_nonneg (antiV m ⬝ᵥ antiV m)
  obtain ⟨q0, q1, q2⟩ := sqrt_half
  have hca : (m 0 0 + m 1 1 + m 2 2 - 1.0) * 0.5 = cosA m := by unfold cosA; norm_num; ring
  have hc1 : cosA m ≤ 1 := by nlinarith
  have hc2 : -1 ≤ cosA m := by nlinarith
  -- the normalised antisymmetric part is an axis
  have haxis : ∀ s, 0 < s → s * s = antiV m ⬝ᵥ antiV m → ((1 / s) • antiV m) ⬝ᵥ ((1 / s) • antiV m) = 1 ∧
      antiV m = s • ((1 / s) • antiV m) ∧
      ∀ i j, symN m i j = (1 - cosA m) * (((1 / s) • antiV m) i * ((1 / s) • antiV m) j) := by
    intro s sp ss
    refine ⟨?_, ?_, ?_⟩
    · rw [smul_dotProduct, dotProduct_smul, ← ss, smul_eq_mul, smul_eq_mul]; field_simp
    · rw [smul_smul]; rw [show s * (1 / s) = 1 by field_simp, one_smul]
    · intro i j
      have ho := anti_outer h i j
      simp only [Pi.smul_apply, smul_eq_mul]
      have hne : 1 + cosA m ≠ 0 := by
        intro h0
        have : s * s = 0 := by rw [ss, hsq]; nlinarith
        exact sp.ne' (mul_self_eq_zero.1 this)
      apply mul_left_cancel₀ hne
      rw [← ho]
      have : s * s = (1 + cosA m) * (1 - cosA m) := by rw [ss, hsq]; ring
      field_simp
      linear_combination (antiV m i * antiV m j) * this
  unfold so3Ln
  simp only
  rw [hca]
  change ∃ u θ, (if cosA m > mSqrt1_2 then
      if Real.sqrt (antiV m ⬝ᵥ antiV m) > 0 then
        some ((Real.arcsin (Real.sqrt (antiV m ⬝ᵥ antiV m)) / Real.sqrt (antiV m ⬝ᵥ antiV m)) • antiV m)
      else some (antiV m)
    else if cosA m > -mSqrt1_2 then
      if Real.sqrt (antiV m ⬝ᵥ antiV m) = 0 then none
      else some ((Real.arccos (cosA m) / Real.sqrt (antiV m ⬝ᵥ antiV m)) • antiV m)
    else Option.map (fun r2 => (Real.pi - Real.arcsin (Real.sqrt (antiV m ⬝ᵥ antiV m))) • r2)
      (unitV (if lnColumn m (cosA m) ⬝ᵥ antiV m < 0 then (-1:ℝ) • lnColumn m (cosA m) else lnColumn m (cosA m)))) =
      some (θ • u) ∧ _
  generalize hS : Real.sqrt (antiV m ⬝ᵥ antiV m) = S at *
  have hcs : cosA m * cosA m + S * S = 1 := by rw [hs, hsq]; ring
  have hS1 : S ≤ 1 := by nlinarith
  have hsin : Real.sin (Real.arcsin S) = S := Real.sin_arcsin (by linarith) hS1
  have hfin : ∀ (u : V 3) (θ : ℝ), u ⬝ᵥ u = 1 → (θ • u) ⬝ᵥ (θ • u) = θ * θ := by
    intro u θ hu
    rw [smul_dotProduct, dotProduct_smul, hu, smul_eq_mul, smul_eq_mul, mul_one]
  by_cases b1 : cosA m > mSqrt1_2
  · rw [if_pos b1]
    have hcos : Real.cos (Real.arcsin S) = cosA m := by
      rw [Real.cos_arcsin, show 1 - S ^ 2 = cosA m * cosA m by nlinarith]
      exact Real.sqrt_mul_self (by linarith)
    by_cases b2 : S > 0
    · rw [if_pos b2]
      obtain ⟨u1, u2, u3⟩ := haxis S b2 hs
      refine ⟨(1 / S) • antiV m, Real.arcsin S, ?_, Real.arcsin_nonneg.2 hsn, ?_, ?_, hfin _ _ u1⟩
      · rw [smul_smul]; congr 2; ring
      · linarith [Real.arcsin_le_pi_div_two S, Real.pi_pos]
      · exact exp_of_axis_angle _ _ u1 hcos (by rw [hsin]; exact u2) u3
    · rw [if_neg b2]
      have s0 : S = 0 := le_antisymm (not_lt.1 b2) hsn
      have hc : cosA m = 1 := by rw [s0] at hcs; nlinarith
      have ha : antiV m = 0 := (dot_self_eq_zero _).1 (by rw [← hs, s0, mul_zero])
      refine ⟨![1, 0, 0], 0, by rw [zero_smul, ha], le_refl _, Real.pi_pos.le, ?_, by simp⟩
      refine exp_of_axis_angle _ _ (by rw [dot3]; simp) (by rw [Real.cos_zero, hc]) (by rw [ha]; simp) ?_
      intro i j
      have := anti_outer h i j
      rw [ha, hc] at this
      rw [hc]; simp at this ⊢
      linarith
  · rw [if_neg b1]
    by_cases b2 : cosA m > -mSqrt1_2
    · rw [if_pos b2]
      have sp : 0 < S := by
        refine lt_of_le_of_ne hsn (fun e => ?_)
        rw [← e] at hcs
        push Not at b1
        nlinarith
      rw [if_neg sp.ne']
      obtain ⟨u1, u2, u3⟩ := haxis S sp hs
      refine ⟨(1 / S) • antiV m, Real.arccos (cosA m), ?_, Real.arccos_nonneg _, Real.arccos_le_pi _, ?_, hfin _ _ u1⟩
      · rw [smul_smul]; congr 2; ring
      · refine exp_of_axis_angle _ _ u1 (Real.cos_arccos hc2 hc1) ?_ u3
        rw [Real.sin_arccos, show 1 - cosA m ^ 2 = S * S by nlinarith, Real.sqrt_mul_self hsn]
        exact u2
    · rw [if_neg b2]
      push Not at b2
      obtain ⟨k, hk1, hk2⟩ := lnColumn_eq m
      rw [hk1]
      set r : V 3 := fun i => symN m i k with hr
      have htr := symN_trace m
      have hkk : symN m k k ≠ 0 := by
        intro h0
        have hz : ∀ i, symN m i i = 0 := by
          intro i; have := hk2 i; rw [h0, zero_mul] at this
          exact mul_self_eq_zero.1 (le_antisymm this (mul_self_nonneg _))
        rw [hz, hz, hz] at htr; linarith
      have hrr : r ⬝ᵥ r = symN m k k * (1 - cosA m) := by
        rw [dot3, ← htr]
        simp only [hr]
        linear_combination (-1) * symN_rank h 0 0 k - symN_rank h 1 1 k - symN_rank h 2 2 k
      set r2 : V 3 := if r ⬝ᵥ antiV m < 0 then (-1:ℝ) • r else r with hr2
      have hσ : ∃ σ : ℝ, σ * σ = 1 ∧ r2 = σ • r ∧ 0 ≤ r2 ⬝ᵥ antiV m := by
        by_cases hneg : r ⬝ᵥ antiV m < 0
        · refine ⟨-1, by norm_num, by rw [hr2, if_pos hneg], ?_⟩
          rw [hr2, if_pos hneg, smul_dotProduct, smul_eq_mul]; linarith
        · refine ⟨1, by norm_num, by rw [hr2, if_neg hneg, one_smul], ?_⟩
          rw [hr2, if_neg hneg]; exact not_lt.1 hneg
      obtain ⟨σ, hσ1, hσ2, hσ3⟩ := hσ
      have hrne : r2 ≠ 0 := by
        intro h0
        have : r2 ⬝ᵥ r2 = 0 := by rw [h0]; simp
        rw [hσ2, smul_dotProduct, dotProduct_smul, smul_eq_mul, smul_eq_mul, hrr] at this
        have h3 : σ * σ * (symN m k k * (1 - cosA m)) = 0 := by linear_combination this
        rw [hσ1, one_mul] at h3
        rcases mul_eq_zero.1 h3 with h3 | h3
        · exact hkk h3
        · linarith
      obtain ⟨κ, hκ, hκ1, hκ2⟩ := unitV_of_ne hrne
      rw [hκ2, Option.map_some]
      set u : V 3 := κ • r2 with hu
      have hu1 : u ⬝ᵥ u = 1 := by
        rw [hu, smul_dotProduct, dotProduct_smul, smul_eq_mul, smul_eq_mul]; linear_combination hκ1
      have hκ3 : κ * κ * (symN m k k * (1 - cosA m)) = 1 := by
        rw [hσ2, smul_dotProduct, dotProduct_smul, smul_eq_mul, smul_eq_mul, hrr] at hκ1
        linear_combination hκ1 - κ * κ * (symN m k k * (1 - cosA m)) * hσ1
      have hui : ∀ i, u i = κ * (σ * symN m i k) := by intro i; rw [hu, hσ2]; rfl
      have huN : ∀ i j, symN m i j = (1 - cosA m) * (u i * u j) := by
        intro i j
        have hrk := symN_rank h i j k
        rw [hui, hui]
        apply mul_right_cancel₀ hkk
        rw [hrk]
        linear_combination (-(symN m i k * symN m j k)) * hκ3 - (1 - cosA m) * κ * κ * symN m i k * symN m j k * symN m k k * hσ1
      have hau : ∀ i j, antiV m i * antiV m j = S * S * (u i * u j) := by
        intro i j; rw [anti_outer h, huN, hs, hsq]; ring
      have hdot : (antiV m ⬝ᵥ u) * (antiV m ⬝ᵥ u) = S * S := by
        rw [dot3] at hu1 ⊢
        linear_combination (u 0 * u 0) * hau 0 0 + (u 1 * u 1) * hau 1 1 + (u 2 * u 2) * hau 2 2 + 2 * (u 0 * u 1) * hau 0 1 +
          2 * (u 0 * u 2) * hau 0 2 + 2 * (u 1 * u 2) * hau 1 2 +
          (S * S * (u 0 * u 0 + u 1 * u 1 + u 2 * u 2 + 1)) * hu1
      have hdnn : 0 ≤ antiV m ⬝ᵥ u := by
        rw [hu, dotProduct_smul, dotProduct_comm, smul_eq_mul]; exact mul_nonneg hκ.le hσ3
      have hdS : antiV m ⬝ᵥ u = S := by
        rcases mul_self_eq_mul_self_iff.1 hdot with e | e
        · exact e
        · have : S = 0 := by linarith
          rw [e, this, neg_zero]
      clear_value u
      have ha : antiV m = S • u := by
        have hz : (antiV m - S • u) ⬝ᵥ (antiV m - S • u) = 0 := by
          rw [sub_dotProduct, dotProduct_sub, dotProduct_sub, smul_dotProduct, smul_dotProduct, dotProduct_smul, dotProduct_smul,
            dotProduct_comm u, hdS, hu1, ← hs]
          simp only [smul_eq_mul]; ring
        exact sub_eq_zero.1 ((dot_self_eq_zero _).1 hz)
      refine ⟨u, Real.pi - Real.arcsin S, rfl, ?_, ?_, ?_, hfin _ _ hu1⟩
      · linarith [Real.arcsin_le_pi_div_two S, Real.pi_pos]
      · linarith [Real.arcsin_nonneg.2 hsn]
      · refine exp_of_axis_angle _ _ hu1 ?_ ?_ huN
        · rw [Real.cos_pi_sub, Real.cos_arcsin, show 1 - S ^ 2 = (-cosA m) * (-cosA m) by nlinarith,
            Real.sqrt_mul_self (by linarith)]
          ring
        · rw [Real.sin_pi_sub, hsin]; exact ha

/-- **C35** for every rotation `R`, `ln` succeeds, its exponential is `R`, and its length is at most `π` -/
theorem c35_exp_ln (m : M 3) (h : IsRot m) :
    ∃ w, so3Ln m = some w ∧ NormedSpace.exp (∑ i, w i • so3Gen i) = m ∧ Real.sqrt (w ⬝ᵥ w) ≤ Real.pi := by
  obtain ⟨u, θ, h1, h2, h3, h4, h5⟩ := ln_axis_angle m h
  exact ⟨θ • u, h1, by rw [gen_sum, h4], by rw [h5, Real.sqrt_mul_self h2]; exact h3⟩

theorem exp_skew_parts (w : V 3) : cosA (NormedSpace.exp (skew w)) = Real.cos (Real.sqrt (w ⬝ᵥ w)) ∧
    (w ≠ 0 → antiV (NormedSpace.exp (skew w)) = (Real.sin (Real.sqrt (w ⬝ᵥ w)) / Real.sqrt (w ⬝ᵥ w)) • w) := by
  by_cases h0 : w = 0
  · subst h0
    have e : skew 0 = 0 := by ext i j; fin_cases i <;> fin_cases j <;> simp [skew]
    rw [e, NormedSpace.exp_zero]
    refine ⟨?_, fun h => absurd rfl h⟩
    simp [cosA]
  have hs := Real.sqrt_pos.2 (dot_self_pos h0)
  rw [exp_skew w _ (sqrt_dot w) hs.ne']
  have hθ := sqrt_dot w
  generalize Real.sqrt (w ⬝ᵥ w) = θ at *
  constructor
  · simp [cosA, skew, Matrix.mul_apply, Fin.sum_univ_three]
    field_simp
    linear_combination (2 * (1 - Real.cos θ)) * hθ
  · intro _
    ext i; fin_cases i <;> simp [antiV, skew, Matrix.mul_apply, Fin.sum_univ_three] <;> ring

/-- two rotation vectors with the same rotation, one shorter than `π` and the other not longer, are equal -/
theorem exp_skew_inj (w v : V 3) (hw : Real.sqrt (w ⬝ᵥ w) < Real.pi) (hv : Real.sqrt (v ⬝ᵥ v) ≤ Real.pi)
    (h : NormedSpace.exp (skew w) = NormedSpace.exp (skew v)) : w = v := by
  obtain ⟨cw, aw⟩ := exp_skew_parts w
  obtain ⟨cv, av⟩ := exp_skew_parts v
  have hθ : Real.sqrt (w ⬝ᵥ w) = Real.sqrt (v ⬝ᵥ v) := by
    apply Real.injOn_cos ⟨Real.sqrt_nonneg _, hw.le⟩ ⟨Real.sqrt_nonneg _, hv⟩
    rw [← cw, ← cv, h]
  by_cases h0 : w = 0
  · subst h0
    simp at hθ
    have : v ⬝ᵥ v = 0 := by
      have := Real.mul_self_sqrt (dot_self_nonneg v)
      rw [← hθ] at this; simpa using this.symm
    exact ((dot_self_eq_zero v).1 this).symm
  have hp := Real.sqrt_pos.2 (dot_self_pos h0)
  have hv0 : v ≠ 0 := by
    rintro rfl
    rw [hθ] at hp; simp at hp
  have e := (aw h0).symm.trans ((congrArg antiV h).trans (av hv0))
  rw [← hθ] at e
  have hne : Real.sin (Real.sqrt (w ⬝ᵥ w)) / Real.sqrt (w ⬝ᵥ w) ≠ 0 :=
    div_ne_zero (Real.sin_pos_of_pos_of_lt_pi hp hw).ne' hp.ne'
  exact smul_right_injective _ hne e

/-- **C35** `ln` recovers every rotation vector shorter than `π` from its exact rotation -/
theorem c35_ln_exp_exact (w : V 3) (h : Real.sqrt (w ⬝ᵥ w) < Real.pi) :
    so3Ln (NormedSpace.exp (∑ i, w i • so3Gen i)) = some w := by
  rw [gen_sum]
  obtain ⟨v, e1, e2, e3⟩ := c35_exp_ln _ (exp_skew_rot w)
  rw [gen_sum] at e2
  rw [e1, exp_skew_inj w v h e3 e2.symm]

/-- **C35** `ln(exp(w)) = w` for the code's `exp`, outside the Taylor branches -/
theorem c35_ln_exp (w : V 3) (h1 : 1e-6 ≤ w ⬝ᵥ w) (h2 : Real.sqrt (w ⬝ᵥ w) < Real.pi) : so3Ln (so3Exp w) = some w := by
  rw [c34_exp_is_matrix_exponential w h1, c35_ln_exp_exact w h2]

/-- **C35** and `exp(ln(R)) = R` for the code's `exp` when the angle is not in the Taylor range -/
theorem c35_code_exp_ln (m : M 3) (h : IsRot m) : ∃ w, so3Ln m = some w ∧ (1e-6 ≤ w ⬝ᵥ w ∨ w = 0 → so3Exp w = m) := by
  obtain ⟨w, e1, e2, -⟩ := c35_exp_ln m h
  refine ⟨w, e1, ?_⟩
  rintro (h1 | h1)
  · rw [c34_exp_is_matrix_exponential w h1, e2]
  · subst h1
    rw [gen_sum] at e2
    have e : skew 0 = 0 := by ext i j; fin_cases i <;> fin_cases j <;> simp [skew]
    rw [e, NormedSpace.exp_zero] at e2
    rw [← e2]
    unfold so3Exp; rw [rodrigues_eq, e]; simp

/-- a rotation by exactly `π`, where the antisymmetric part vanishes, meets the hypotheses -/
example : IsRot (!![-1, 0, 0; 0, 1, 0; 0, 0, -1] : M 3) :=
  ⟨by ext i j; fin_cases i <;> fin_cases j <;> simp [Matrix.mul_apply, Fin.sum_univ_three], by rw [det_fin_three]; simp⟩

example : (1e-6:ℝ) ≤ (![1, 2, 2] : V 3) ⬝ᵥ ![1, 2, 2] ∧ Real.sqrt ((![1, 2, 2] : V 3) ⬝ᵥ ![1, 2, 2]) < Real.pi := by
  have : (![1, 2, 2] : V 3) ⬝ᵥ ![1, 2, 2] = 3 * 3 := by rw [dot3]; simp; norm_num
  rw [this, Real.sqrt_mul_self (by norm_num)]
  exact ⟨by norm_num, Real.pi_gt_three⟩

/-! ## C36 -/

/-- **C36** `coerce` on independent rows with positive orientation gives a rotation whose first row has the direction of the
given first row and whose second row lies in the plane of the first two; negative orientation fails the assertion -/
theorem c36_coerce (m : M 3) (h : m.det ≠ 0) :
    (0 < m.det → ∃ r, coerce3 m = some (.ok r) ∧ IsRot r ∧ (∃ k : ℝ, 0 < k ∧ r 0 = k • m 0) ∧
      ∃ a b : ℝ, 0 < b ∧ r 1 = a • m 0 + b • m 1) ∧
    (m.det < 0 → coerce3 m = some .abort) := by
  have hdet : ∀ a b c : V 3, (Matrix.of ![a, b, c]).det = crossV a b ⬝ᵥ c := by
    intro a b c; rw [det_fin_three, dot3]; simp [crossV]; ring
  have hm : m = Matrix.of ![m 0, m 1, m 2] := by ext i j; fin_cases i <;> rfl
  have hD : m.det = crossV (m 0) (m 1) ⬝ᵥ m 2 := by rw [← hdet, ← hm]
  have key : ∃ r, (coerce3 m = some (if 0 < m.det then .ok r else .abort)) ∧ r * rᵀ = 1 ∧ (0 < m.det → 0 < r.det) ∧
      (∃ k : ℝ, 0 < k ∧ r 0 = k • m 0) ∧ ∃ a b : ℝ, 0 < b ∧ r 1 = a • m 0 + b • m 1 := by
    unfold coerce3
    rw [hD] at h ⊢
    generalize m 0 = x at *
    generalize m 1 = y at *
    generalize m 2 = z at *
    have hx0 : x ≠ 0 := by rintro rfl; apply h; simp [crossV]
    obtain ⟨k, hk, hk1, hu⟩ := unitV_of_ne hx0
    rw [hu, Option.bind_some]
    simp only
    set e0 : V 3 := k • x with he0
    have e00 : e0 ⬝ᵥ e0 = 1 := by rw [he0, smul_dotProduct, dotProduct_smul, smul_eq_mul, smul_eq_mul]; linear_combination hk1
    set y' : V 3 := y - (e0 ⬝ᵥ y) • e0 with hy'
    have p01 : e0 ⬝ᵥ y' = 0 := by rw [hy', dotProduct_sub, dotProduct_smul, e00, smul_eq_mul]; ring
    have d1 : crossV x y' ⬝ᵥ z = crossV x y ⬝ᵥ z := by
      rw [hy', he0]; generalize (k • x ⬝ᵥ y) = c; rw [dot3, dot3]; simp [crossV]; ring
    have hy0 : y' ≠ 0 := by intro e; apply h; rw [← d1, e]; simp [crossV]
    obtain ⟨l, hl, hl1, hv⟩ := unitV_of_ne hy0
    rw [hv, Option.bind_some]
    set e1 : V 3 := l • y' with he1
    have e11 : e1 ⬝ᵥ e1 = 1 := by rw [he1, smul_dotProduct, dotProduct_smul, smul_eq_mul, smul_eq_mul]; linear_combination hl1
    have e01 : e0 ⬝ᵥ e1 = 0 := by rw [he1, dotProduct_smul, p01, smul_zero]
    set z' : V 3 := z - (e0 ⬝ᵥ z) • e0 with hz'
    set z'' : V 3 := z' - (e1 ⬝ᵥ z') • e1 with hz''
    have p02 : e0 ⬝ᵥ z'' = 0 := by
      rw [hz'', dotProduct_sub, dotProduct_smul, e01, hz', dotProduct_sub, dotProduct_smul, e00]; simp
    have p12 : e1 ⬝ᵥ z'' = 0 := by
      rw [hz'', dotProduct_sub, dotProduct_smul, e11]; simp
    have d2 : crossV x y' ⬝ᵥ z'' = crossV x y' ⬝ᵥ z := by
      rw [hz'', hz']
      generalize (e1 ⬝ᵥ (z - (e0 ⬝ᵥ z) • e0)) = c1
      generalize (e0 ⬝ᵥ z) = c0
      rw [he1, he0]
      rw [dot3, dot3]; simp [crossV]; ring
    have hz0 : z'' ≠ 0 := by intro e; apply h; rw [← d1, ← d2, e]; simp
    obtain ⟨p, hp, hp1, hw⟩ := unitV_of_ne hz0
    rw [hw, Option.map_some]
    set e2 : V 3 := p • z'' with he2
    have e22 : e2 ⬝ᵥ e2 = 1 := by rw [he2, smul_dotProduct, dotProduct_smul, smul_eq_mul, smul_eq_mul]; linear_combination hp1
    have e02 : e0 ⬝ᵥ e2 = 0 := by rw [he2, dotProduct_smul, p02, smul_zero]
    have e12 : e1 ⬝ᵥ e2 = 0 := by rw [he2, dotProduct_smul, p12, smul_zero]
    have d3 : crossV e0 e1 ⬝ᵥ e2 = k * l * p * (crossV x y ⬝ᵥ z) := by
      rw [← d1, ← d2, he0, he1, he2]
      clear_value y' z''
      rw [dot3, dot3]; simp [crossV]; ring
    have hpos : 0 < k * l * p := by positivity
    have hiff : (crossV e0 e1 ⬝ᵥ e2 > 0) ↔ 0 < crossV x y ⬝ᵥ z := by
      rw [d3]; exact ⟨fun hh => (pos_iff_pos_of_mul_pos hh).1 hpos, fun hh => mul_pos hpos hh⟩
    refine ⟨Matrix.of ![e0, e1, e2], ?_, ?_, ?_, ⟨k, hk, rfl⟩, ⟨-(l * (k * (e0 ⬝ᵥ y))), l, hl, ?_⟩⟩
    · simp only [hiff]
    · have o : ∀ a b : V 3, a 0 * b 0 + a 1 * b 1 + a 2 * b 2 = a ⬝ᵥ b := fun a b => (dot3 a b).symm
      ext i j
      fin_cases i <;> fin_cases j <;> simp [Matrix.mul_apply, Fin.sum_univ_three, o, e00, e11, e22, e01, e02, e12,
        dotProduct_comm e1 e0, dotProduct_comm e2 e0, dotProduct_comm e2 e1]
    · intro hh; rw [hdet]; exact hiff.2 hh
    · show e1 = _
      rw [he1, hy', smul_sub, he0, smul_smul, smul_smul, neg_smul, sub_eq_add_neg, add_comm]
      congr 3
      ring
  obtain ⟨r, r1, r2, r3, r4⟩ := key
  constructor
  · intro hp
    refine ⟨r, by rw [r1, if_pos hp], ⟨r2, ?_⟩, r4⟩
    have := congrArg Matrix.det r2
    rw [det_mul, det_transpose, det_one] at this
    rcases mul_self_eq_one_iff.1 this with e | e
    · exact e
    · have := r3 hp; linarith
  · intro hn; rw [r1, if_neg (not_lt.2 hn.le)]

/-- **C36** `coerce` leaves rotations unchanged -/
theorem c36_coerce_rotation (m : M 3) (h : IsRot m) : coerce3 m = some (.ok m) := by
  have d : ∀ i j, m i ⬝ᵥ m j = (1 : M 3) i j := fun i j => congrFun (congrFun h.orth i) j
  have d00 := d 0 0; have d11 := d 1 1; have d22 := d 2 2
  have d01 := d 0 1; have d02 := d 0 2; have d12 := d 1 2
  simp at d00 d11 d22 d01 d02 d12
  unfold coerce3
  rw [unitV_of_unit d00, Option.bind_some]
  simp only
  rw [d01, zero_smul, sub_zero, unitV_of_unit d11, Option.bind_some, d02, zero_smul, sub_zero, d12, zero_smul, sub_zero,
    unitV_of_unit d22, Option.map_some, if_pos]
  · congr 2
    ext i j; fin_cases i <;> rfl
  · have := h.det
    rw [det_fin_three] at this
    rw [dot3]
    simp [crossV]
    linarith

/-- **C36** `coerce` divides by zero exactly on dependent rows -/
theorem c36_coerce_fails_iff (m : M 3) : coerce3 m = none ↔ m.det = 0 := by
  constructor
  · intro hn
    by_contra hd
    rcases lt_or_gt_of_ne hd with hh | hh
    · rw [(c36_coerce m hd).2 hh] at hn; nomatch hn
    · obtain ⟨r, e, -⟩ := (c36_coerce m hd).1 hh
      rw [e] at hn; nomatch hn
  · intro hd
    have hD : crossV (m 0) (m 1) ⬝ᵥ m 2 = 0 := by
      rw [← hd, det_fin_three, dot3]; simp [crossV]; ring
    unfold coerce3
    generalize m 0 = x at *
    generalize m 1 = y at *
    generalize m 2 = z at *
    by_cases hx0 : x = 0
    · rw [hx0, unitV_zero]; rfl
    obtain ⟨k, hk, hk1, hu⟩ := unitV_of_ne hx0
    rw [hu, Option.bind_some]
    simp only
    set e0 : V 3 := k • x with he0
    have e00 : e0 ⬝ᵥ e0 = 1 := by rw [he0, smul_dotProduct, dotProduct_smul, smul_eq_mul, smul_eq_mul]; linear_combination hk1
    set y' : V 3 := y - (e0 ⬝ᵥ y) • e0 with hy'
    have p01 : e0 ⬝ᵥ y' = 0 := by rw [hy', dotProduct_sub, dotProduct_smul, e00, smul_eq_mul]; ring
    have d1 : crossV x y' ⬝ᵥ z = crossV x y ⬝ᵥ z := by
      rw [hy', he0]; generalize (k • x ⬝ᵥ y) = c; rw [dot3, dot3]; simp [crossV]; ring
    by_cases hy0 : y' = 0
    · rw [hy0, unitV_zero]; rfl
    obtain ⟨l, hl, hl1, hv⟩ := unitV_of_ne hy0
    rw [hv, Option.bind_some]
    set e1 : V 3 := l • y' with he1
    have e11 : e1 ⬝ᵥ e1 = 1 := by rw [he1, smul_dotProduct, dotProduct_smul, smul_eq_mul, smul_eq_mul]; linear_combination hl1
    have e01 : e0 ⬝ᵥ e1 = 0 := by rw [he1, dotProduct_smul, p01, smul_zero]
    set z' : V 3 := z - (e0 ⬝ᵥ z) • e0 with hz'
    set z'' : V 3 := z' - (e1 ⬝ᵥ z') • e1 with hz''
    have p02 : e0 ⬝ᵥ z'' = 0 := by
      rw [hz'', dotProduct_sub, dotProduct_smul, e01, hz', dotProduct_sub, dotProduct_smul, e00]; simp
    have p12 : e1 ⬝ᵥ z'' = 0 := by
      rw [hz'', dotProduct_sub, dotProduct_smul, e11]; simp
    have d2 : crossV x y' ⬝ᵥ z'' = crossV x y' ⬝ᵥ z := by
      rw [hz'', hz']
      generalize (e1 ⬝ᵥ (z - (e0 ⬝ᵥ z) • e0)) = c1
      generalize (e0 ⬝ᵥ z) = c0
      rw [he1, he0]
      rw [dot3, dot3]; simp [crossV]; ring
    have d3 : crossV e0 e1 ⬝ᵥ z'' = 0 := by
      have : crossV e0 e1 ⬝ᵥ z'' = k * l * (crossV x y' ⬝ᵥ z'') := by
        rw [he0, he1]
        clear_value y' z''
        rw [dot3, dot3]; simp [crossV]; ring
      rw [this, d2, d1, hD, mul_zero]
    have hz0 : z'' = 0 := by
      clear_value z'' e0 e1
      -- Lagrange: |z|² |e0 × e1|² = (det)² when z is orthogonal to both
      apply (dot_self_eq_zero _).1
      rw [dot3] at e00 e11 e01 p02 p12 d3 ⊢
      simp [crossV] at d3
      generalize e0 0 = a0 at *
      generalize e0 1 = a1 at *
      generalize e0 2 = a2 at *
      generalize e1 0 = b0 at *
      generalize e1 1 = b1 at *
      generalize e1 2 = b2 at *
      generalize z'' 0 = c0 at *
      generalize z'' 1 = c1 at *
      generalize z'' 2 = c2 at *
      have hcr : (a1 * b2 - a2 * b1) ^ 2 + (a2 * b0 - a0 * b2) ^ 2 + (a0 * b1 - a1 * b0) ^ 2 = 1 := by
        linear_combination (b0 * b0 + b1 * b1 + b2 * b2) * e00 + e11 - (a0 * b0 + a1 * b1 + a2 * b2) * e01
      -- z is parallel to e0 × e1, and its dot product with it is zero
      have f0 : (a2 * b0 - a0 * b2) * c2 - (a0 * b1 - a1 * b0) * c1 = 0 := by linear_combination b0 * p02 - a0 * p12
      have f1 : (a0 * b1 - a1 * b0) * c0 - (a1 * b2 - a2 * b1) * c2 = 0 := by linear_combination b1 * p02 - a1 * p12
      have f2 : (a1 * b2 - a2 * b1) * c1 - (a2 * b0 - a0 * b2) * c0 = 0 := by linear_combination b2 * p02 - a2 * p12
      generalize a1 * b2 - a2 * b1 = n0 at *
      generalize a2 * b0 - a0 * b2 = n1 at *
      generalize a0 * b1 - a1 * b0 = n2 at *
      linear_combination (-(c0 * c0 + c1 * c1 + c2 * c2)) * hcr + (n0 * c0 + n1 * c1 + n2 * c2) * d3 + (n1 * c2 - n2 * c1) * f0 +
        (n2 * c0 - n0 * c2) * f1 + (n0 * c1 - n1 * c0) * f2
    rw [hz0, unitV_zero]; rfl

/-- **C36** `SO3(a, b)` is a rotation taking the direction of `a` to the direction of `b`, with axis `a × b` -/
theorem c36_from_to (a b : V 3) (h : crossV a b ≠ 0) :
    ∃ R, so3FromTo a b = some (.ok R) ∧ IsRot R ∧ R.mulVec (crossV a b) = crossV a b ∧
      ∃ k : ℝ, 0 < k ∧ R.mulVec a = k • b := by
  have ha : a ≠ 0 := by rintro rfl; apply h; ext i; fin_cases i <;> simp [crossV]
  have hb : b ≠ 0 := by rintro rfl; apply h; ext i; fin_cases i <;> simp [crossV]
  have hn : ¬ (crossV a b ⬝ᵥ crossV a b = 0) := fun e => h ((dot_self_eq_zero _).1 e)
  obtain ⟨κ, hκ, κ1, κ2⟩ := unitV_of_ne h
  obtain ⟨α, hα, α1, α2⟩ := unitV_of_ne ha
  obtain ⟨β, hβ, β1, β2⟩ := unitV_of_ne hb
  unfold so3FromTo
  simp only
  rw [if_neg hn, κ2, Option.bind_some, α2, Option.bind_some, β2, Option.map_some]
  set n := κ • crossV a b with hnn
  set ua := α • a with hua
  set ub := β • b with hub
  have n1 : n ⬝ᵥ n = 1 := by rw [hnn, smul_dotProduct, dotProduct_smul, smul_eq_mul, smul_eq_mul]; linear_combination κ1
  have a1 : ua ⬝ᵥ ua = 1 := by rw [hua, smul_dotProduct, dotProduct_smul, smul_eq_mul, smul_eq_mul]; linear_combination α1
  have b1 : ub ⬝ᵥ ub = 1 := by rw [hub, smul_dotProduct, dotProduct_smul, smul_eq_mul, smul_eq_mul]; linear_combination β1
  have an : ua ⬝ᵥ n = 0 := by
    rw [hua, hnn, smul_dotProduct, dotProduct_smul]
    have : a ⬝ᵥ crossV a b = 0 := by rw [dot3]; simp [crossV]; ring
    rw [this]; simp
  have bn : ub ⬝ᵥ n = 0 := by
    rw [hub, hnn, smul_dotProduct, dotProduct_smul]
    have : b ⬝ᵥ crossV a b = 0 := by rw [dot3]; simp [crossV]; ring
    rw [this]; simp
  -- the frame (u, n, u × n) is orthonormal with determinant one
  have frame : ∀ u : V 3, u ⬝ᵥ u = 1 → u ⬝ᵥ n = 0 → IsRot (Matrix.of ![u, n, crossV u n] : M 3) := by
    intro u hu hun
    clear_value n
    rw [dot3] at hu hun n1
    constructor
    · ext i j
      fin_cases i <;> fin_cases j <;> simp [Matrix.mul_apply, Fin.sum_univ_three, crossV]
      · linear_combination hu
      · linear_combination hun
      · ring
      · linear_combination hun
      · linear_combination n1
      · ring
      · ring
      · ring
      · linear_combination (n 0 * n 0 + n 1 * n 1 + n 2 * n 2) * hu + n1 - (u 0 * n 0 + u 1 * n 1 + u 2 * n 2) * hun
    · rw [det_fin_three]
      simp [crossV]
      linear_combination (n 0 * n 0 + n 1 * n 1 + n 2 * n 2) * hu + n1 - (u 0 * n 0 + u 1 * n 1 + u 2 * n 2) * hun
  have fa := frame ua a1 an
  have fb := frame ub b1 bn
  set FA : M 3 := Matrix.of ![ua, n, crossV ua n] with hFA
  set FB : M 3 := Matrix.of ![ub, n, crossV ub n] with hFB
  have rows : ∀ (F : M 3) (hF : IsRot F) (i : Fin 3), F.mulVec (F i) = Pi.single i 1 := by
    intro F hF i
    funext j
    have := congrFun (congrFun hF.orth j) i
    show F j ⬝ᵥ F i = _
    have e : F j ⬝ᵥ F i = (F * Fᵀ) j i := rfl
    rw [e, this, Matrix.one_apply, Pi.single_apply]
  have cols : ∀ (F : M 3) (i : Fin 3), Fᵀ.mulVec (Pi.single i 1) = F i := by
    intro F i; funext j; simp
  have hR : ∀ i, (FBᵀ * FA).mulVec (FA i) = FB i := by
    intro i; rw [← mulVec_mulVec, rows FA fa, cols]
  refine ⟨FBᵀ * FA, rfl, ⟨?_, ?_⟩, ?_, β / α, div_pos hβ hα, ?_⟩
  · rw [transpose_mul, transpose_transpose, Matrix.mul_assoc, ← Matrix.mul_assoc FA, fa.orth, Matrix.one_mul, fb.orth']
  · rw [det_mul, det_transpose, fa.det, fb.det, mul_one]
  · have e := hR 1
    have e1 : FA 1 = κ • crossV a b := rfl
    have e2 : FB 1 = κ • crossV a b := rfl
    rw [e1, e2, mulVec_smul] at e
    exact smul_right_injective _ hκ.ne' e
  · have e := hR 0
    have e1 : FA 0 = α • a := rfl
    have e2 : FB 0 = β • b := rfl
    rw [e1, e2, mulVec_smul] at e
    rw [div_eq_inv_mul, mul_smul, ← e, smul_smul, inv_mul_cancel₀ hα.ne', one_smul]

/-- **C36** parallel vectors: the identity if they do not point in opposite directions, otherwise the assertion fails -/
theorem c36_from_to_parallel (a b : V 3) (h : crossV a b = 0) :
    so3FromTo a b = some (if 0 ≤ a ⬝ᵥ b then .ok 1 else .abort) := by
  unfold so3FromTo
  rw [h]
  simp only [zero_dotProduct, if_true]
  by_cases hp : 0 ≤ a ⬝ᵥ b
  · rw [if_pos hp, if_pos hp]
  · rw [if_neg hp, if_neg hp]

/-- a concrete case of each hypothesis -/
example : (!![1, 2, 0; 0, 1, 0; 3, 0, 2] : M 3).det ≠ 0 ∧ crossV ![1, 2, 3] ![0, 1, 1] ≠ 0 ∧ crossV ![1, 2, 3] ![2, 4, 6] = 0 := by
  refine ⟨by rw [det_fin_three]; simp, ?_, ?_⟩
  · intro e; have := congrFun e 0; simp [crossV] at this; norm_num at this
  · ext i; fin_cases i <;> simp [crossV] <;> norm_num

end TooN.Lie
