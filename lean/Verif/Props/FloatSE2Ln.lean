import Verif.Model.FloatSE2Ln
import Verif.Props.FloatSE3Ln4
import Verif.Props.FloatSE2
import Verif.Props.SE2
/-!
# C94: `SO2::ln` and `SE2::ln` in rounded arithmetic
-/
set_option linter.unusedSectionVars false
namespace TooN.FlRot
open Finset Lie Matrix
variable {ρ : Rounding}

/-- `atan2` is accurate to `η` relative to its value; the exact value of `atan2(y, x)` is the argument of `x + iy` -/
def AtanAcc (A : Fl ρ → Fl ρ → Fl ρ) (η : ℝ) : Prop :=
  ∀ y x : Fl ρ, |(A y x).val - Complex.arg ⟨x.val, y.val⟩| ≤ η * |Complex.arg ⟨x.val, y.val⟩|

theorem circle_lip (a b : ℝ) : eucl (![Real.cos a, Real.sin a] - ![Real.cos b, Real.sin b] : V 2) ≤ |a - b| := by
  have h := Real.one_sub_sq_div_two_le_cos (x := a - b)
  rw [Real.cos_sub] at h
  rw [eucl, Real.sqrt_le_left (abs_nonneg _), sq_abs, Fin.sum_univ_two]
  simp only [Pi.sub_apply, Matrix.cons_val_zero, Matrix.cons_val_one]
  have h1 := Real.sin_sq_add_cos_sq a
  have h2 := Real.sin_sq_add_cos_sq b
  nlinarith

theorem frob_so2 (θ : ℝ) {Q : M 2} (hQ : IsRot Q) :
    frob (so2Exp θ - Q) ≤ 1.41422 * eucl (![Real.cos θ, Real.sin θ] - ![Q 0 0, Q 1 0] : V 2) := by
  obtain ⟨g1, g2, -⟩ := rot2_form hQ
  have e : frob (so2Exp θ - Q) = Real.sqrt 2 * eucl (![Real.cos θ, Real.sin θ] - ![Q 0 0, Q 1 0] : V 2) := by
    rw [frob, eucl, ← Real.sqrt_mul (by norm_num)]
    congr 1
    simp only [Fin.sum_univ_two, Matrix.sub_apply, so2Exp, Pi.sub_apply, Matrix.cons_val_zero, Matrix.cons_val_one, Matrix.of_apply,
      Matrix.cons_val', Matrix.cons_val_fin_one, g1, g2]
    ring
  rw [e]
  refine mul_le_mul_of_nonneg_right ?_ (eucl_nonneg _)
  rw [Real.sqrt_le_left (by norm_num)]; norm_num

/-- **C94** `SO2::ln` of a stored matrix within `δ` of a rotation `Q`: the rotation by the resulting angle is within `4.01δ + 4.45η'` of `Q`,
and the angle is in `[-π(1+η'), π(1+η')]` -/
theorem c94_so2_ln (A : Fl ρ → Fl ρ → Fl ρ) {η' : ℝ} (hη : 0 ≤ η') (hA : AtanAcc A η') (m : Mat (Fl ρ)) {Q : M 2} (hQ : IsRot Q) {δ : ℝ}
    (hδ : δ ≤ 1 / 2) (hm : ∀ i j : Fin 2, |(m i j).val - Q i j| ≤ δ) :
    frob (so2Exp (so2LnFl A m).val - Q) ≤ 4.01 * δ + 4.45 * η' ∧ |(so2LnFl A m).val| ≤ Real.pi * (1 + η') := by
  obtain ⟨g1, g2, g3⟩ := rot2_form hQ
  have δ0 : 0 ≤ δ := (abs_nonneg _).trans (hm 0 0)
  have h00 := hm 0 0
  have h10 := hm 1 0
  have ha := hA (m 1 0) (m 0 0)
  have hp := Complex.abs_arg_le_pi (⟨(m 0 0).val, (m 1 0).val⟩ : ℂ)
  have hd : eucl (![(m 0 0).val, (m 1 0).val] - ![Q 0 0, Q 1 0] : V 2) ≤ 1.41422 * δ := by
    have : eucl (![(m 0 0).val, (m 1 0).val] - ![Q 0 0, Q 1 0] : V 2) ≤ eucl (δ • (fun _ => 1 : V 2)) := eucl_mono fun i => by
      simp only [Pi.smul_apply, smul_eq_mul, mul_one]; rw [abs_of_nonneg δ0]
      fin_cases i
      · exact h00
      · exact h10
    rw [eucl_smul', abs_of_nonneg δ0] at this
    have h2 : eucl (fun _ => 1 : V 2) ≤ 1.41422 := by
      rw [eucl, Real.sqrt_le_left (by norm_num)]; simp; norm_num
    have := mul_le_mul_of_nonneg_left h2 δ0
    linarith
  have hq : eucl (![Q 0 0, Q 1 0] : V 2) = 1 := by
    rw [eucl, Real.sqrt_eq_one, Fin.sum_univ_two]
    simp only [Matrix.cons_val_zero, Matrix.cons_val_one]; linarith
  have hz : 0 < eucl (![(m 0 0).val, (m 1 0).val] : V 2) := by
    have := eucl_le_of (![Q 0 0, Q 1 0] : V 2) ![(m 0 0).val, (m 1 0).val] (d := 1.41422 * δ) (by rw [eucl_sub_comm]; exact hd)
    rw [hq] at this; linarith
  have hu := unit_dist _ _ hz hq hd
  have hn : ‖(⟨(m 0 0).val, (m 1 0).val⟩ : ℂ)‖ = eucl (![(m 0 0).val, (m 1 0).val] : V 2) := by
    rw [Complex.norm_eq_sqrt_sq_add_sq, eucl, Fin.sum_univ_two]; rfl
  have hne : (⟨(m 0 0).val, (m 1 0).val⟩ : ℂ) ≠ 0 := by
    intro h; rw [h, norm_zero] at hn; exact hz.ne hn
  have ec := Complex.cos_arg hne
  have es := Complex.sin_arg (⟨(m 0 0).val, (m 1 0).val⟩ : ℂ)
  rw [hn] at ec es
  have eu : (1 / eucl (![(m 0 0).val, (m 1 0).val] : V 2)) • (![(m 0 0).val, (m 1 0).val] : V 2) =
      ![Real.cos (Complex.arg ⟨(m 0 0).val, (m 1 0).val⟩), Real.sin (Complex.arg ⟨(m 0 0).val, (m 1 0).val⟩)] := by
    rw [ec, es]; funext i; fin_cases i <;> simp [div_eq_inv_mul]
  rw [eu] at hu
  unfold so2LnFl
  have hc := circle_lip (A (m 1 0) (m 0 0)).val (Complex.arg ⟨(m 0 0).val, (m 1 0).val⟩)
  generalize Complex.arg ⟨(m 0 0).val, (m 1 0).val⟩ = φ at *
  generalize (A (m 1 0) (m 0 0)).val = θ at *
  have hpi := Real.pi_lt_d4
  have hφ : η' * |φ| ≤ η' * Real.pi := mul_le_mul_of_nonneg_left hp hη
  constructor
  · refine (frob_so2 θ hQ).trans ?_
    have t := eucl_add (![Real.cos θ, Real.sin θ] - ![Real.cos φ, Real.sin φ] : V 2) (![Real.cos φ, Real.sin φ] - ![Q 0 0, Q 1 0])
    rw [sub_add_sub_cancel] at t
    have hπ : η' * Real.pi ≤ η' * 3.1416 := mul_le_mul_of_nonneg_left hpi.le hη
    linarith
  · have : |θ| ≤ |θ - φ| + |φ| := by have := abs_add_le (θ - φ) φ; rwa [sub_add_cancel] at this
    linarith

/-- **C94** a stored matrix that is exactly the rotation by `φ ∈ (-π, π]`: the angle is `φ` up to the accuracy of `atan2` -/
theorem c94_so2_angle (A : Fl ρ → Fl ρ → Fl ρ) {η' : ℝ} (hA : AtanAcc A η') (m : Mat (Fl ρ)) {φ : ℝ} (h1 : -Real.pi < φ) (h2 : φ ≤ Real.pi)
    (hm : ∀ i j : Fin 2, (m i j).val = so2Exp φ i j) : |(so2LnFl A m).val - φ| ≤ η' * |φ| := by
  have h := hA (m 1 0) (m 0 0)
  have e : (⟨(m 0 0).val, (m 1 0).val⟩ : ℂ) = Complex.cos φ + Complex.sin φ * Complex.I := by
    have c0 := hm 0 0
    have c1 := hm 1 0
    simp [so2Exp] at c0 c1
    apply Complex.ext
    · simp [c0, Complex.cos_ofReal_re]
    · simp [c1, Complex.sin_ofReal_re]
  have ea : Complex.arg ⟨(m 0 0).val, (m 1 0).val⟩ = φ := by
    rw [e]; exact Complex.arg_cos_add_sin_mul_I ⟨h1, h2⟩
  rw [ea] at h
  exact h

/-! ## the translation -/

/-- translation of `exp` of the planar twist `(p, θ)` -/
noncomputable def expTr2 (p : V 2) (θ : ℝ) : V 2 := fun i => (NormedSpace.exp (∑ k, (![p 0, p 1, θ] : V 3) k • se2Gen k) : M 3) i.castSucc (Fin.last 2)

/-- it is the rotation by half the angle, times `2 sin(θ/2)/θ` -/
theorem expTr2_eq (p : V 2) (θ : ℝ) : expTr2 p θ = (2 * shR θ) • (so2Exp (θ / 2)).mulVec p := by
  funext i
  obtain ⟨-, h1, h2⟩ := se2_exact ![p 0, p 1, θ] i i
  unfold expTr2
  by_cases h : θ = 0
  · rw [h2 h, shR, if_pos h, h]
    fin_cases i <;> simp [so2Exp, dotProduct]
  · rw [h1 h, shR, if_neg h]
    have e1 : Real.sin |θ| / |θ| = Real.sin θ / θ := by
      rcases le_total 0 θ with h' | h'
      · rw [abs_of_nonneg h']
      · rw [abs_of_nonpos h', Real.sin_neg, neg_div_neg_eq]
    obtain ⟨a, b⟩ := half_angle θ
    have sc := Real.sin_sq_add_cos_sq (θ / 2)
    have et : (![p 0, p 1, θ] : V 3) 2 = θ := rfl
    rw [et, e1, Real.cos_abs, abs_mul_abs_self, a, b, so2Exp]
    generalize Real.sin (θ / 2) = S at *
    generalize Real.cos (θ / 2) = K at *
    fin_cases i <;> simp [mulVec, dotProduct, Fin.sum_univ_two] <;> field_simp <;> ring_nf

end TooN.FlRot
