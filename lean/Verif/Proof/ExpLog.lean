import Mathlib.Analysis.SpecialFunctions.Exponential
import Mathlib.Analysis.Calculus.MeanValue
import Mathlib.Analysis.Calculus.SmoothSeries
import Mathlib.Analysis.SpecificLimits.Normed
import Mathlib.Analysis.SpecialFunctions.ExpDeriv
import Mathlib.Analysis.Calculus.Deriv.Pow
import Mathlib.Tactic.FieldSimp
import Mathlib.Tactic.NoncommRing
/-!
# Truncation errors of the exponential and logarithm series in a Banach algebra
-/
namespace TooN
open NormedSpace Finset
open scoped Nat

variable {𝔸 : Type*} [NormedRing 𝔸] [NormedAlgebra ℝ 𝔸] [CompleteSpace 𝔸]

theorem norm_pow_le_of_one (h1 : ‖(1 : 𝔸)‖ ≤ 1) (a : 𝔸) (j : ℕ) : ‖a ^ j‖ ≤ ‖a‖ ^ j := by
  rcases Nat.eq_zero_or_pos j with h | h
  · subst h; simpa using h1
  · exact norm_pow_le' a h

/-- the remainder of the exponential series is at most `‖first omitted term‖ * e^‖a‖` -/
theorem exp_tail (h1 : ‖(1 : 𝔸)‖ ≤ 1) (a : 𝔸) (k : ℕ) :
    ‖exp a - ∑ j ∈ range k, ((j ! : ℝ)⁻¹) • a ^ j‖ ≤ ‖((k ! : ℝ)⁻¹) • a ^ k‖ * Real.exp ‖a‖ := by
  have hs := exp_series_hasSum_exp' (𝕂 := ℝ) a
  have ht := (hasSum_nat_add_iff' k).2 hs
  have he : HasSum (fun j : ℕ => ‖((k ! : ℝ)⁻¹) • a ^ k‖ * ((j ! : ℝ)⁻¹ * ‖a‖ ^ j)) (‖((k ! : ℝ)⁻¹) • a ^ k‖ * Real.exp ‖a‖) := by
    have := exp_series_hasSum_exp' (𝕂 := ℝ) ‖a‖
    rw [← Real.exp_eq_exp_ℝ] at this
    exact this.mul_left _
  refine ht.norm_le_of_bounded he fun j => ?_
  have e : (((j + k) ! : ℝ)⁻¹) • a ^ (j + k) =
      (((j + k) ! : ℝ)⁻¹ * (k ! : ℝ)) • ((((k ! : ℝ)⁻¹) • a ^ k) * a ^ j) := by
    rw [smul_mul_assoc, smul_smul, ← pow_add, mul_assoc, mul_inv_cancel₀ (by positivity), mul_one, add_comm k j]
  rw [e, norm_smul]
  have hf : ((j + k) ! : ℝ)⁻¹ * (k ! : ℝ) ≤ (j ! : ℝ)⁻¹ := by
    rw [inv_mul_le_iff₀ (by positivity), ← div_eq_mul_inv, le_div_iff₀ (by positivity)]
    have := Nat.factorial_mul_factorial_dvd_factorial_add j k
    have h2 := Nat.le_of_dvd (Nat.factorial_pos _) this
    rw [mul_comm]
    exact_mod_cast h2
  rw [Real.norm_of_nonneg (by positivity)]
  calc ((j + k) ! : ℝ)⁻¹ * (k ! : ℝ) * ‖(((k ! : ℝ)⁻¹) • a ^ k) * a ^ j‖
      ≤ (j ! : ℝ)⁻¹ * (‖((k ! : ℝ)⁻¹) • a ^ k‖ * ‖a‖ ^ j) := by
        refine mul_le_mul hf ?_ (norm_nonneg _) (by positivity)
        exact (norm_mul_le _ _).trans (mul_le_mul_of_nonneg_left (norm_pow_le_of_one h1 a j) (norm_nonneg _))
    _ = _ := by ring

/-- powers of close elements are close -/
theorem norm_pow_sub_pow_le (h1 : ‖(1 : 𝔸)‖ ≤ 1) (x y : 𝔸) (c : ℝ) (hx : ‖x‖ ≤ c) (hy : ‖y‖ ≤ c) (N : ℕ) :
    ‖x ^ (N + 1) - y ^ (N + 1)‖ ≤ (N + 1) * c ^ N * ‖x - y‖ := by
  have hc : 0 ≤ c := (norm_nonneg _).trans hx
  induction N with
  | zero => simp
  | succ N ih =>
    have e : x ^ (N + 1 + 1) - y ^ (N + 1 + 1) = x ^ (N + 1) * (x - y) + (x ^ (N + 1) - y ^ (N + 1)) * y := by
      rw [pow_succ x (N + 1), pow_succ y (N + 1)]; noncomm_ring
    rw [e]
    refine (norm_add_le _ _).trans ?_
    have a1 : ‖x ^ (N + 1) * (x - y)‖ ≤ c ^ (N + 1) * ‖x - y‖ :=
      (norm_mul_le _ _).trans (mul_le_mul_of_nonneg_right
        ((norm_pow_le_of_one h1 x _).trans (pow_le_pow_left₀ (norm_nonneg _) hx _)) (norm_nonneg _))
    have a2 : ‖(x ^ (N + 1) - y ^ (N + 1)) * y‖ ≤ ((N + 1) * c ^ N * ‖x - y‖) * c :=
      (norm_mul_le _ _).trans (mul_le_mul ih hy (norm_nonneg _) (by positivity))
    calc _ ≤ c ^ (N + 1) * ‖x - y‖ + ((N + 1) * c ^ N * ‖x - y‖) * c := add_le_add a1 a2
      _ = _ := by push_cast; ring

/-- partial sums of the Mercator series for `log (1 + X)` -/
noncomputable def logPartial (X : 𝔸) (k : ℕ) : 𝔸 := ∑ j ∈ range k, ((-1 : ℝ) ^ j / (j + 1)) • X ^ (j + 1)

/-- for `‖X‖ < 1` there is a logarithm of `1 + X` (commuting with everything that commutes with `X`), and the partial sums
approximate it up to `‖first omitted term‖ / (1 - ‖X‖)` -/
theorem log_series (h1 : ‖(1 : 𝔸)‖ ≤ 1) (X : 𝔸) (hX : ‖X‖ < 1) :
    ∃ L : 𝔸, exp L = 1 + X ∧
      ∀ k : ℕ, ‖L - logPartial X k‖ ≤ ‖((-1 : ℝ) ^ k / (k + 1)) • X ^ (k + 1)‖ * (1 - ‖X‖)⁻¹ := by
  set x := ‖X‖ with hx
  have hx0 : 0 ≤ x := norm_nonneg X
  obtain ⟨r, hr1, hrx⟩ : ∃ r : ℝ, 1 < r ∧ r * x < 1 := by
    refine ⟨2 / (1 + x), ?_, ?_⟩
    · rw [lt_div_iff₀ (by linarith)]; linarith
    · rw [div_mul_eq_mul_div, div_lt_one (by linarith)]; linarith
  let g : ℕ → ℝ → 𝔸 := fun j u => ((-1 : ℝ) ^ j / (j + 1) * u ^ (j + 1)) • X ^ (j + 1)
  let g' : ℕ → ℝ → 𝔸 := fun j u => ((-1 : ℝ) ^ j * u ^ j) • X ^ (j + 1)
  let L : ℝ → 𝔸 := fun u => ∑' j, g j u
  have hg : ∀ j u, HasDerivAt (g j) (g' j u) u := by
    intro j u
    have h := ((hasDerivAt_pow (j + 1) u).const_mul ((-1 : ℝ) ^ j / (j + 1))).smul_const (X ^ (j + 1))
    refine h.congr_deriv ?_
    simp only [g']
    congr 1
    have : ((j : ℝ) + 1) ≠ 0 := by positivity
    push_cast
    field_simp
  have hg'b : ∀ j u, u ∈ Set.Ioo (-r) r → ‖g' j u‖ ≤ x * (r * x) ^ j := by
    intro j u hu
    simp only [g']
    rw [norm_smul, norm_mul, norm_pow, norm_neg, norm_one, one_pow, one_mul, norm_pow, Real.norm_eq_abs]
    have hu' : |u| ≤ r := (abs_lt.2 hu).le
    calc |u| ^ j * ‖X ^ (j + 1)‖ ≤ r ^ j * x ^ (j + 1) :=
          mul_le_mul (pow_le_pow_left₀ (abs_nonneg _) hu' _) (norm_pow_le' X (Nat.succ_pos j)) (norm_nonneg _) (by positivity)
      _ = x * (r * x) ^ j := by rw [mul_pow, pow_succ]; ring
  have hsum : Summable fun j : ℕ => x * (r * x) ^ j :=
    (summable_geometric_of_lt_one (by positivity) hrx).mul_left x
  have h0 : ∀ j, g j 0 = 0 := fun j => by simp [g]
  have hL : ∀ u ∈ Set.Ioo (-r) r, HasDerivAt L (∑' j, g' j u) u := fun u hu =>
    hasDerivAt_tsum_of_isPreconnected hsum isOpen_Ioo isPreconnected_Ioo (fun j u _ => hg j u) hg'b
      (show (0 : ℝ) ∈ Set.Ioo (-r) r from ⟨by linarith, by linarith⟩) (by simp [h0]) hu
  have hderiv : ∀ u ∈ Set.Ioo (-r) r, (∑' j, g' j u) * (1 + u • X) = X := by
    intro u hu
    have hux : ‖-(u • X)‖ < 1 := by
      rw [norm_neg, norm_smul, Real.norm_eq_abs]
      have hu' : |u| ≤ r := (abs_lt.2 hu).le
      calc |u| * ‖X‖ ≤ r * x := mul_le_mul_of_nonneg_right hu' hx0
        _ < 1 := hrx
    have hgeo : (∑' j, g' j u) = X * ∑' j : ℕ, (-(u • X)) ^ j := by
      rw [← (summable_geometric_of_norm_lt_one hux).tsum_mul_left X]
      refine tsum_congr fun j => ?_
      simp only [g']
      rw [neg_pow (u • X), smul_pow, pow_succ' X j, mul_smul]
      rcases Nat.even_or_odd j with h | h
      · simp [h.neg_one_pow]
      · simp [h.neg_one_pow]
    rw [hgeo, mul_assoc]
    have := geom_series_mul_neg (-(u • X)) hux
    rw [sub_neg_eq_add] at this
    rw [this, mul_one]
  have hcomm : ∀ u w, Commute (L u) (L w) := by
    intro u w
    refine Commute.tsum_right _ fun j => Commute.tsum_left _ fun i => ?_
    exact ((Commute.refl X).pow_pow _ _).smul_left _ |>.smul_right _
  have hE : ∀ u ∈ Set.Ioo (-r) r, HasDerivAt (fun w => exp (-(L w))) (exp (-(L u)) * (-(∑' j, g' j u))) u := by
    intro u hu
    have heq : (fun w => exp (-(L w))) = fun w => exp (-(L u)) * exp (-(L w - L u)) := by
      funext w
      letI : NormedAlgebra ℚ 𝔸 := NormedAlgebra.restrictScalars ℚ ℝ 𝔸
      rw [← exp_add_of_commute]
      · congr 1; abel
      · exact (((hcomm u w).sub_right (Commute.refl _)).neg_left).neg_right
    rw [heq]
    have hin : HasDerivAt (fun w => -(L w - L u)) (-(∑' j, g' j u)) u := ((hL u hu).sub_const (L u)).neg
    have hexp0 : HasFDerivAt (exp : 𝔸 → 𝔸) (1 : 𝔸 →L[ℝ] 𝔸) (-(L u - L u)) := by
      rw [sub_self, neg_zero]; exact hasFDerivAt_exp_zero
    have hc := hexp0.comp_hasDerivAt u hin
    have := hc.const_mul (exp (-(L u)))
    exact this
  have hG : ∀ u ∈ Set.Ioo (-r) r, HasDerivAt (fun w => exp (-(L w)) * (1 + w • X)) 0 u := by
    intro u hu
    have hlin : HasDerivAt (fun w : ℝ => 1 + w • X) X u := by
      have := ((hasDerivAt_id u).smul_const X).const_add (1 : 𝔸)
      rw [one_smul] at this
      exact this
    refine ((hE u hu).mul hlin).congr_deriv ?_
    rw [mul_assoc, neg_mul, hderiv u hu, ← mul_add, neg_add_cancel, mul_zero]
  have hconst : exp (-(L 1)) * (1 + (1 : ℝ) • X) = exp (-(L 0)) * (1 + (0 : ℝ) • X) := by
    refine isOpen_Ioo.is_const_of_deriv_eq_zero (s := Set.Ioo (-r) r) (f := fun w => exp (-(L w)) * (1 + w • X)) isPreconnected_Ioo
      (fun u hu => (hG u hu).differentiableAt.differentiableWithinAt) (fun u hu => (hG u hu).deriv) ⟨by linarith, hr1⟩ ⟨by linarith, by linarith⟩
  have hL0 : L 0 = 0 := by simp [L, h0]
  rw [hL0, neg_zero, NormedSpace.exp_zero, one_smul, zero_smul, add_zero, one_mul] at hconst
  letI : NormedAlgebra ℚ 𝔸 := NormedAlgebra.restrictScalars ℚ ℝ 𝔸
  have hinv : exp (L 1) * exp (-(L 1)) = 1 := by
    rw [← exp_add_of_commute (Commute.refl _).neg_right, add_neg_cancel, NormedSpace.exp_zero]
  refine ⟨L 1, ?_, ?_⟩
  · calc exp (L 1) = exp (L 1) * (exp (-(L 1)) * (1 + X)) := by rw [hconst, mul_one]
      _ = 1 + X := by rw [← mul_assoc, hinv, one_mul]
  · intro k
    have hb : ∀ j : ℕ, ‖((-1 : ℝ) ^ j / (j + 1)) • X ^ (j + 1)‖ ≤ x * x ^ j := by
      intro j
      rw [norm_smul, norm_div, norm_pow, norm_neg, norm_one, one_pow]
      have h2 : ‖(j : ℝ) + 1‖ = j + 1 := Real.norm_of_nonneg (by positivity)
      rw [h2]
      have h3 : 1 / ((j : ℝ) + 1) ≤ 1 := by
        rw [div_le_one (by positivity)]
        have : (0 : ℝ) ≤ j := Nat.cast_nonneg j
        linarith
      calc _ ≤ 1 * x ^ (j + 1) := mul_le_mul h3 (norm_pow_le' X (Nat.succ_pos j)) (norm_nonneg _) zero_le_one
        _ = _ := by rw [pow_succ]; ring
    have hs : HasSum (fun j : ℕ => ((-1 : ℝ) ^ j / (j + 1)) • X ^ (j + 1)) (L 1) := by
      have : Summable (fun j : ℕ => ((-1 : ℝ) ^ j / (j + 1)) • X ^ (j + 1)) :=
        Summable.of_norm_bounded ((summable_geometric_of_lt_one hx0 hX).mul_left x) hb
      have h2 := this.hasSum
      have e : (∑' j : ℕ, ((-1 : ℝ) ^ j / (j + 1)) • X ^ (j + 1)) = L 1 := by
        simp only [L, g, one_pow, mul_one]
      rw [e] at h2; exact h2
    have ht := (hasSum_nat_add_iff' k).2 hs
    have hgeo : HasSum (fun j : ℕ => ‖((-1 : ℝ) ^ k / (k + 1)) • X ^ (k + 1)‖ * x ^ j)
        (‖((-1 : ℝ) ^ k / (k + 1)) • X ^ (k + 1)‖ * (1 - x)⁻¹) :=
      (hasSum_geometric_of_lt_one hx0 hX).mul_left _
    refine ht.norm_le_of_bounded hgeo fun j => ?_
    have hk : (0 : ℝ) < (k : ℝ) + 1 := by positivity
    have hjk : (0 : ℝ) < ((j + k : ℕ) : ℝ) + 1 := by positivity
    have hp : X ^ (j + k + 1) = X ^ (k + 1) * X ^ j := by rw [← pow_add]; congr 1; omega
    rw [hp, norm_smul, norm_smul, norm_div, norm_div, norm_pow, norm_pow, norm_neg, norm_one, one_pow, one_pow,
      Real.norm_of_nonneg hk.le, Real.norm_of_nonneg hjk.le]
    have hle : 1 / (((j + k : ℕ) : ℝ) + 1) ≤ 1 / ((k : ℝ) + 1) := by
      apply one_div_le_one_div_of_le hk
      push_cast
      have : (0 : ℝ) ≤ j := Nat.cast_nonneg j
      linarith
    calc 1 / (((j + k : ℕ) : ℝ) + 1) * ‖X ^ (k + 1) * X ^ j‖
        ≤ 1 / ((k : ℝ) + 1) * (‖X ^ (k + 1)‖ * x ^ j) :=
          mul_le_mul hle ((norm_mul_le _ _).trans (mul_le_mul_of_nonneg_left (norm_pow_le_of_one h1 X j) (norm_nonneg _)))
            (norm_nonneg _) (by positivity)
      _ = _ := by ring

end TooN
