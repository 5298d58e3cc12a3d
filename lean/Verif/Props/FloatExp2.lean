import Verif.Props.FloatExp
/-!
# C70: rotations built from rotation vectors in floating point, continued
-/
set_option linter.unusedSectionVars false
namespace TooN.FlRot
open Finset Lie
open scoped Matrix
variable {ρ : Rounding}

theorem frob_le_of_entries {n : ℕ} (D : Matrix (Fin n) (Fin n) ℝ) (e : ℝ) (he : 0 ≤ e) (h : ∀ i j, |D i j| ≤ e) :
    frob D ≤ n * e := by
  rw [frob]
  have h1 : ∑ i, ∑ j, D i j ^ 2 ≤ (n * e) ^ 2 := by
    have : ∑ i, ∑ j, D i j ^ 2 ≤ ∑ _i : Fin n, ∑ _j : Fin n, e ^ 2 :=
      sum_le_sum fun i _ => sum_le_sum fun j _ => by rw [← sq_abs]; exact pow_le_pow_left₀ (abs_nonneg _) (h i j) 2
    refine le_trans this (le_of_eq ?_)
    simp; ring
  exact le_trans (Real.sqrt_le_sqrt h1) (by rw [Real.sqrt_sq (by positivity)])

/-- **C70** the same as a Frobenius distance, as `c69_*` take it -/
theorem c70_exp_frob (hu : ρ.u ≤ 1 / 10000) (L : Libm ρ) (η : ℝ) (hs : ∀ x, |(L.sin x).val - Real.sin x.val| ≤ η)
    (hc : ∀ x, |(L.cos x).val - Real.cos x.val| ≤ η) (w : Vec (Fl ρ)) (R : Mat (Fl ρ)) :
    frob (asM 3 3 (rmat (so3ExpFl L w R)) - NormedSpace.exp (skew (asV 3 (rvec w)))) ≤
      3 * (2 * η + (7 * eucl (asV 3 (rvec w)) + 34) * ρ.u + 3e-17) := by
  have hη : 0 ≤ η := le_trans (abs_nonneg _) (hs 0)
  have h0 := ρ.u_nonneg
  have h1 := eucl_nonneg (asV 3 (rvec w))
  have := frob_le_of_entries (asM 3 3 (rmat (so3ExpFl L w R)) - NormedSpace.exp (skew (asV 3 (rvec w)))) _ (by positivity)
    (fun i j => c70_exp hu L η hs hc w R i j)
  exact_mod_cast this

/-- **C70** `SO2::exp(d)`: every entry is within `η` of the rotation by `d`, and the two entries of each pair are exactly equal resp.
opposite -/
theorem c70_exp2 (L : Libm ρ) (η : ℝ) (hs : ∀ x, |(L.sin x).val - Real.sin x.val| ≤ η)
    (hc : ∀ x, |(L.cos x).val - Real.cos x.val| ≤ η) (d : Fl ρ) (R : Mat (Fl ρ)) :
    (∀ i j : Fin 2, |(so2ExpFl L d R i j).val - so2Exp d.val i j| ≤ η) ∧
    so2ExpFl L d R 0 0 = so2ExpFl L d R 1 1 ∧ so2ExpFl L d R 0 1 = -so2ExpFl L d R 1 0 := by
  refine ⟨fun i j => ?_, by simp [so2ExpFl, Mat.set], by simp [so2ExpFl, Mat.set]⟩
  fin_cases i <;> fin_cases j <;> simp [so2ExpFl, so2Exp, Mat.set]
  · exact hc d
  · have := hs d; rw [abs_sub_comm] at this; rw [neg_add_eq_sub]; exact this
  · exact hs d
  · exact hc d

theorem val_inj {a b : Fl ρ} (h : a.val = b.val) : a = b := Fl.ext h

theorem fl_mul_zero (a : Fl ρ) : a * 0 = 0 := val_inj (by rw [Fl.val_mul, Fl.val_zero, mul_zero, Fl.rnd_zero])
theorem fl_zero_mul (a : Fl ρ) : 0 * a = 0 := val_inj (by rw [Fl.val_mul, Fl.val_zero, zero_mul, Fl.rnd_zero])
theorem fl_sub_zero (a : Fl ρ) : a - 0 = a := val_inj (by rw [Fl.val_sub, Fl.val_zero, sub_zero, a.repr])
theorem fl_add_zero (a : Fl ρ) : a + 0 = a := val_inj (by rw [Fl.val_add, Fl.val_zero, add_zero, a.repr])
theorem fl_neg_mul_neg (a b : Fl ρ) : -a * -b = a * b := val_inj (by simp [Fl.val_mul])
theorem fl_mul_neg (a b : Fl ρ) : a * -b = -(a * b) := val_inj (by simp [Fl.val_mul, ρ.neg])
theorem fl_add_neg (a b : Fl ρ) : a + -b = a - b := val_inj (by simp [Fl.val_add, Fl.val_sub, sub_eq_add_neg])
theorem fl_sub_neg (a b : Fl ρ) : a - -b = a + b := val_inj (by simp [Fl.val_add, Fl.val_sub])

/-- **C70** the rotation of the zero vector is exactly the identity, whatever the C library -/
theorem c70_exp_zero (L : Libm ρ) (w : Vec (Fl ρ)) (hw : ∀ i, i < 3 → w i = 0) (R : Mat (Fl ρ)) (i j : ℕ) (hi : i < 3)
    (hj : j < 3) : so3ExpFl L w R i j = if i = j then 1 else 0 := by
  have z0 := hw 0 (by omega)
  have z1 := hw 1 (by omega)
  have z2 := hw 2 (by omega)
  unfold so3ExpFl rodriguesFl
  generalize (coeffFl L w).1 = A
  generalize (coeffFl L w).2 = B
  simp only [z0, z1, z2, fl_mul_zero, fl_add_zero, fl_sub_zero]
  have hi : i = 0 ∨ i = 1 ∨ i = 2 := by omega
  have hj : j = 0 ∨ j = 1 ∨ j = 2 := by omega
  rcases hi with rfl | rfl | rfl <;> rcases hj with rfl | rfl | rfl <;> simp [Mat.set]

theorem coeffFl_neg (L : Libm ρ) (w : Vec (Fl ρ)) : coeffFl L (fun i => -w i) = coeffFl L w := by
  have : Ops.dot 3 (fun i => -w i) (fun i => -w i) = Ops.dot 3 w w := by
    simp only [Ops.dot, fl_neg_mul_neg]
  unfold coeffFl
  rw [this]

/-- **C70** `exp(-w)` and `exp(w).inverse()` are the same matrix, bit for bit -/
theorem c70_exp_neg (L : Libm ρ) (w : Vec (Fl ρ)) (R R' : Mat (Fl ρ)) (i j : ℕ) (hi : i < 3) (hj : j < 3) :
    so3ExpFl L (fun i => -w i) R i j = soInv (so3ExpFl L w R') i j := by
  unfold so3ExpFl
  rw [coeffFl_neg]
  unfold rodriguesFl soInv Mat.T
  simp only [fl_neg_mul_neg]
  simp only [fl_mul_neg, fl_add_neg, fl_sub_neg]
  have hi : i = 0 ∨ i = 1 ∨ i = 2 := by omega
  have hj : j = 0 ∨ j = 1 ∨ j = 2 := by omega
  rcases hi with rfl | rfl | rfl <;> rcases hj with rfl | rfl | rfl <;> simp [Mat.set]

/-- a C library whose `sin` and `cos` are correctly rounded -/
noncomputable def Libm.rounded (ρ : Rounding) : Libm ρ := ⟨fun x => Fl.of ρ (Real.sin x.val), fun x => Fl.of ρ (Real.cos x.val)⟩

theorem Libm.rounded_err (x : Fl ρ) :
    |((Libm.rounded ρ).sin x).val - Real.sin x.val| ≤ ρ.u ∧ |((Libm.rounded ρ).cos x).val - Real.cos x.val| ≤ ρ.u := by
  refine ⟨le_trans (ρ.err _) ?_, le_trans (ρ.err _) ?_⟩
  · have := mul_le_mul_of_nonneg_left (Real.abs_sin_le_one x.val) ρ.u_nonneg; linarith
  · have := mul_le_mul_of_nonneg_left (Real.abs_cos_le_one x.val) ρ.u_nonneg; linarith

/-- **C70** integrating angular velocity in double precision: `R = exp(w₀); R *= exp(w₁); …` with up to a million steps of at most one
radian each and a C library whose `sin` and `cos` are accurate to one part in `2⁵³`.  The result is within `2·10⁻⁸` of the exact
product of the exact exponentials, and its rows are orthonormal to `5·10⁻⁸`. -/
theorem c70_integrate (L : Libm Rounding.double) (hs : ∀ x, |(L.sin x).val - Real.sin x.val| ≤ 1 / 2 ^ 53)
    (hc : ∀ x, |(L.cos x).val - Real.cos x.val| ≤ 1 / 2 ^ 53) (w : ℕ → Vec (Fl Rounding.double))
    (W V : ℕ → Mat (Fl Rounding.double)) (k : ℕ) (hk : k < 1000000) (hw : ∀ i, i ≤ k → eucl (asV 3 (rvec (w i))) ≤ 1) :
    frob (asM 3 3 (rmat (soChain 3 (fun i => so3ExpFl L (w i) (V i)) W k)) -
      chain (fun i => NormedSpace.exp (skew (asV 3 (rvec (w i))))) k) ≤ 2 / 10 ^ 8 ∧
    ∀ i j, i < 3 → j < 3 → |∑ l ∈ range 3, (soChain 3 (fun i => so3ExpFl L (w i) (V i)) W k i l).val *
      (soChain 3 (fun i => so3ExpFl L (w i) (V i)) W k j l).val - if i = j then 1 else 0| ≤ 5 / 10 ^ 8 := by
  have hu : Rounding.double.u = 1 / 2 ^ 53 := Rounding.double_u
  have hn : ((3 : ℕ) : ℝ) * Rounding.double.u < 1 := by rw [hu]; norm_num
  have hR : ∀ i, i ≤ k → IsRot ((fun i => NormedSpace.exp (skew (asV 3 (rvec (w i)))) : ℕ → M 3) i) :=
    fun i _ => exp_skew_rot _
  have h1 := c69_drift_linear hn (fun i => so3ExpFl L (w i) (V i)) W
    (fun i => NormedSpace.exp (skew (asV 3 (rvec (w i))))) k (131 / 2 ^ 53) (145 / 2 ^ 53) hR
    (fun i hi => by
      refine le_trans (c70_exp_frob (by rw [hu]; norm_num) L _ hs hc (w i) (V i)) ?_
      have := hw i hi
      rw [hu]
      norm_num at this ⊢
      linarith)
    (by rw [gam, hu]; norm_num)
    (by
      have : (k : ℝ) + 1 ≤ 1000000 := by exact_mod_cast hk
      norm_num; linarith)
  have h2 : frob (asM 3 3 (rmat (soChain 3 (fun i => so3ExpFl L (w i) (V i)) W k)) -
      chain (fun i => NormedSpace.exp (skew (asV 3 (rvec (w i))))) k) ≤ 2 / 10 ^ 8 := by
    refine le_trans h1 ?_
    have hk' : (k : ℝ) + 1 ≤ 1000000 := by exact_mod_cast hk
    have hk0 : (0 : ℝ) ≤ k := Nat.cast_nonneg k
    rw [div_le_iff₀ (by norm_num; linarith)]
    norm_num; linarith
  refine ⟨h2, fun i j hi hj => ?_⟩
  have := (c69_defect _ _ (chain_isRot _ k hR) _ h2 i j hi hj).1
  refine le_trans this ?_
  norm_num

/-- the hypotheses of `c70_integrate` are met by the correctly rounded library and a constant turn rate of half a radian per step about
the first axis -/
example : (∀ x, |((Libm.rounded Rounding.double).sin x).val - Real.sin x.val| ≤ 1 / 2 ^ 53) ∧
    (∀ x, |((Libm.rounded Rounding.double).cos x).val - Real.cos x.val| ≤ 1 / 2 ^ 53) ∧
    eucl (asV 3 (rvec (fun i => if i = 0 then (Fl.of Rounding.double (1 / 2)) else 0))) ≤ 1 := by
  have hu : Rounding.double.u = 1 / 2 ^ 53 := Rounding.double_u
  refine ⟨fun x => hu ▸ (Libm.rounded_err x).1, fun x => hu ▸ (Libm.rounded_err x).2, ?_⟩
  rw [eucl_range, Real.sqrt_le_one]
  simp [sum_range_succ]
  have h := Rounding.double.err (1 / 2)
  rw [hu] at h
  have e : (Fl.of Rounding.double (1 / 2)).val = Rounding.double.rnd (1 / 2) := rfl
  have e' : (2⁻¹ : ℝ) = 1 / 2 := by norm_num
  rw [e', e]
  rw [abs_le] at h ⊢
  norm_num at h ⊢
  constructor <;> linarith

/-- **C70** in exact arithmetic (and with exact `sin` and `cos`) this model of `exp` is the one of `Model/SO.lean` -/
theorem c70_exp_exact (w : Vec (Fl Rounding.exact)) (R : Mat (Fl Rounding.exact)) (i j : Fin 3) :
    (so3ExpFl (Libm.rounded Rounding.exact) w R i j).val = so3Exp (asV 3 (rvec w)) i j := by
  have hd := dot_exact 3 w w
  have xa : ∀ a b : Fl Rounding.exact, (a + b).val = a.val + b.val := fun _ _ => rfl
  have xs : ∀ a b : Fl Rounding.exact, (a - b).val = a.val - b.val := fun _ _ => rfl
  have xm : ∀ a b : Fl Rounding.exact, (a * b).val = a.val * b.val := fun _ _ => rfl
  have xd : ∀ a b : Fl Rounding.exact, (a / b).val = a.val / b.val := fun _ _ => rfl
  have xq : ∀ a : Fl Rounding.exact, (Fl.sqrt a).val = Real.sqrt a.val := fun _ => rfl
  have xo : ∀ a : ℝ, (Fl.of Rounding.exact a).val = a := fun _ => rfl
  have xi : ∀ a : Fl Rounding.exact, ((Libm.rounded Rounding.exact).sin a).val = Real.sin a.val := fun _ => rfl
  have xc : ∀ a : Fl Rounding.exact, ((Libm.rounded Rounding.exact).cos a).val = Real.cos a.val := fun _ => rfl
  have hc : (coeffFl (Libm.rounded Rounding.exact) w).1.val = (so3Coeff (asV 3 (rvec w))).1 ∧
      (coeffFl (Libm.rounded Rounding.exact) w).2.val = (so3Coeff (asV 3 (rvec w))).2 := by
    have lt_iff : ∀ c : ℝ, Ops.dot 3 w w < lit c ↔ asV 3 (rvec w) ⬝ᵥ asV 3 (rvec w) < c := by
      intro c; rw [← hd]; rfl
    unfold coeffFl so3Coeff
    dsimp only
    by_cases c1 : asV 3 (rvec w) ⬝ᵥ asV 3 (rvec w) < 1e-8
    · rw [if_pos c1, if_pos ((lt_iff _).2 c1)]
      simp only [xs, xm, xd, xq, xo, xi, xc, hd, Fl.val_one]
      norm_num
    · rw [if_neg c1, if_neg (fun h => c1 ((lt_iff _).1 h))]
      by_cases c2 : asV 3 (rvec w) ⬝ᵥ asV 3 (rvec w) < 1e-6
      · rw [if_pos c2, if_pos ((lt_iff _).2 c2)]
        simp only [xs, xm, xd, xq, xo, xi, xc, hd, Fl.val_one]
        norm_num
      · rw [if_neg c2, if_neg (fun h => c2 ((lt_iff _).1 h))]
        simp only [xs, xm, xd, xq, xo, xi, xc, hd, Fl.val_one]
        norm_num
  unfold so3ExpFl so3Exp
  rw [← hc.1, ← hc.2]
  generalize (coeffFl (Libm.rounded Rounding.exact) w).1 = A
  generalize (coeffFl (Libm.rounded Rounding.exact) w).2 = B
  fin_cases i <;> fin_cases j <;>
    simp [rodriguesFl, rodrigues, Mat.set, xs, xa, xm, asV, rvec]

end TooN.FlRot
