import Verif.Model.FloatLn
import Verif.Props.FloatFromTo2
import Verif.Props.SO3Ln
import Mathlib.Analysis.SpecialFunctions.Trigonometric.InverseDeriv
/-!
# Lemmas for `SO3::ln` in rounded arithmetic
-/
set_option linter.unusedSectionVars false
namespace TooN.FlRot
open Finset Lie Matrix
variable {ρ : Rounding}

/-! ## `arcsin` and `arccos` away from ±1 -/

theorem arcsin_lip {x y : ℝ} (hx : |x| ≤ 0.73) (hy : |y| ≤ 0.73) : |Real.arcsin x - Real.arcsin y| ≤ 1.5 * |x - y| := by
  have key : ∀ z ∈ Set.Icc (-0.73 : ℝ) 0.73, ‖deriv Real.arcsin z‖ ≤ 1.5 := by
    intro z hz
    have hz2 : z ^ 2 ≤ 0.73 ^ 2 := sq_le_sq' hz.1 hz.2
    rw [Real.deriv_arcsin]
    have h1 : (0.67 : ℝ) ≤ Real.sqrt (1 - z ^ 2) := Real.le_sqrt_of_sq_le (by norm_num at hz2 ⊢; linarith)
    have hp : 0 < Real.sqrt (1 - z ^ 2) := lt_of_lt_of_le (by norm_num) h1
    rw [Real.norm_eq_abs, abs_of_pos (by positivity), div_le_iff₀ hp]
    norm_num at h1 ⊢; linarith
  have := Convex.norm_image_sub_le_of_norm_deriv_le (𝕜 := ℝ) (f := Real.arcsin) (s := Set.Icc (-0.73 : ℝ) 0.73) (C := 1.5)
    (fun z hz => Real.differentiableAt_arcsin.2 ⟨by rintro rfl; norm_num at hz, by rintro rfl; norm_num at hz⟩) key
    (convex_Icc _ _) (abs_le.1 hy) (abs_le.1 hx)
  exact this

theorem arccos_lip {x y : ℝ} (hx : |x| ≤ 0.73) (hy : |y| ≤ 0.73) : |Real.arccos x - Real.arccos y| ≤ 1.5 * |x - y| := by
  unfold Real.arccos
  have := arcsin_lip hy hx
  rw [show Real.pi / 2 - Real.arcsin x - (Real.pi / 2 - Real.arcsin y) = Real.arcsin y - Real.arcsin x by ring, abs_sub_comm x]
  exact this

theorem arcsin_le {x : ℝ} (hx : |x| ≤ 0.73) : |Real.arcsin x| ≤ 1.5 * |x| := by
  have := arcsin_lip hx (y := 0) (by norm_num)
  simpa using this

/-- the rotation vector as a function of the antisymmetric part -/
theorem dir_lip (p q : Lie.V 3) (hp : eucl p ≤ 0.73) (hq : eucl q ≤ 0.73) :
    eucl ((Real.arcsin (eucl p) / eucl p) • p - (Real.arcsin (eucl q) / eucl q) • q) ≤ 4.5 * eucl (p - q) := by
  have ap : |eucl p| = eucl p := abs_of_nonneg (eucl_nonneg _)
  have aq : |eucl q| = eucl q := abs_of_nonneg (eucl_nonneg _)
  have hpq : |eucl p - eucl q| ≤ eucl (p - q) := by
    rw [abs_le]
    have h1 := eucl_le_of p q le_rfl
    have h2 := eucl_le_of q p (d := eucl (p - q)) (by rw [eucl_sub_comm])
    constructor <;> linarith
  have g : ∀ v : Lie.V 3, eucl v ≤ 0.73 → |Real.arcsin (eucl v) / eucl v| ≤ 1.5 := by
    intro v hv
    have av : |eucl v| = eucl v := abs_of_nonneg (eucl_nonneg _)
    rcases (eucl_nonneg v).lt_or_eq with h | h
    · rw [abs_div, div_le_iff₀ (abs_pos.2 h.ne')]
      exact arcsin_le (by rw [av]; exact hv)
    · rw [← h]; norm_num
  have gq : Real.arcsin (eucl q) / eucl q * eucl q = Real.arcsin (eucl q) := by
    rcases (eucl_nonneg q).lt_or_eq with h | h
    · field_simp
    · rw [← h]; simp
  have gp : Real.arcsin (eucl p) / eucl p * eucl p = Real.arcsin (eucl p) := by
    rcases (eucl_nonneg p).lt_or_eq with h | h
    · field_simp
    · rw [← h]; simp
  have e : (Real.arcsin (eucl p) / eucl p) • p - (Real.arcsin (eucl q) / eucl q) • q =
      (Real.arcsin (eucl p) / eucl p) • (p - q) + (Real.arcsin (eucl p) / eucl p - Real.arcsin (eucl q) / eucl q) • q := by
    rw [smul_sub, sub_smul]; abel
  rw [e]
  refine (eucl_add _ _).trans ?_
  rw [eucl_smul', eucl_smul']
  have h1 := mul_le_mul_of_nonneg_right (g p hp) (eucl_nonneg (p - q))
  have h2 : |Real.arcsin (eucl p) / eucl p - Real.arcsin (eucl q) / eucl q| * eucl q ≤ 3 * eucl (p - q) := by
    rw [← aq, ← abs_mul, aq, sub_mul, gq]
    have e2 : Real.arcsin (eucl p) / eucl p * eucl q - Real.arcsin (eucl q) =
        Real.arcsin (eucl p) / eucl p * (eucl q - eucl p) + (Real.arcsin (eucl p) - Real.arcsin (eucl q)) := by
      rw [mul_sub, gp]; ring1
    rw [e2]
    refine (abs_add_le _ _).trans ?_
    rw [abs_mul]
    have hqp : |eucl q - eucl p| ≤ eucl (p - q) := by rw [abs_sub_comm (eucl q)]; exact hpq
    have h3 := mul_le_mul (g p hp) hqp (abs_nonneg _) (by norm_num : (0:ℝ) ≤ 1.5)
    have h4 := arcsin_lip (x := eucl p) (y := eucl q) (by rw [ap]; exact hp) (by rw [aq]; exact hq)
    norm_num at h3 h4 ⊢; linarith
  norm_num at h1 h2 ⊢; linarith

/-! ## axis and angle -/

theorem axis_angle (R : M 3) (h : IsRot R) : ∃ (a : Lie.V 3) (θ : ℝ), a ⬝ᵥ a = 1 ∧ 0 ≤ θ ∧ θ ≤ Real.pi ∧ cosA R = Real.cos θ ∧
    antiV R = Real.sin θ • a ∧ (∀ i j, symN R i j = (1 - Real.cos θ) * (a i * a j)) ∧
    NormedSpace.exp (skew (θ • a)) = R ∧ NormedSpace.exp (skew ((θ - 2 * Real.pi) • a)) = R := by
  obtain ⟨a, θ, h1, h2, h3, h4, h5⟩ := ln_axis_angle R h
  obtain ⟨a, ha, h4⟩ : ∃ a : Lie.V 3, a ⬝ᵥ a = 1 ∧ NormedSpace.exp (skew (θ • a)) = R := by
    rcases h2.lt_or_eq with hp | hp
    · refine ⟨a, ?_, h4⟩
      rw [smul_dotProduct, dotProduct_smul, smul_eq_mul, smul_eq_mul, ← mul_assoc] at h5
      exact mul_left_cancel₀ (mul_pos hp hp).ne' (by rw [h5, mul_one])
    · refine ⟨![1, 0, 0], by simp [dotProduct, Fin.sum_univ_three], ?_⟩
      rw [← h4, ← hp, zero_smul, zero_smul]
  have key : NormedSpace.exp (skew (θ • a)) = 1 + Real.sin θ • skew a + (1 - Real.cos θ) • (skew a * skew a) := by
    have hsk : skew (θ • a) = θ • skew a := by
      ext i j; fin_cases i <;> fin_cases j <;> simp [skew]
    by_cases h0 : θ = 0
    · subst h0; rw [hsk]; simp [NormedSpace.exp_zero]
    · rw [dot3] at ha
      rw [exp_skew (θ • a) θ (by simp; linear_combination (-(θ * θ)) * ha) h0, hsk]
      simp only [Matrix.smul_mul, Matrix.mul_smul, smul_smul]
      congr 2
      · congr 1; field_simp
      · field_simp
  have hc : cosA R = Real.cos θ := by
    rw [← h4, key]
    rw [dot3] at ha
    simp [cosA, skew, Matrix.mul_apply, Fin.sum_univ_three]
    linear_combination (-(1 - Real.cos θ)) * ha
  have hA : antiV R = Real.sin θ • a := by
    rw [← h4, key]
    ext i; fin_cases i <;> simp [antiV, skew, Matrix.mul_apply, Fin.sum_univ_three] <;> ring
  have hN : ∀ i j, symN R i j = (1 - Real.cos θ) * (a i * a j) := by
    intro i j
    unfold symN
    rw [hc, ← h4, key]
    rw [dot3] at ha
    fin_cases i <;> fin_cases j <;> simp [skew, Matrix.mul_apply, Fin.sum_univ_three]
    all_goals first | ring1 | linear_combination (-(1 - Real.cos θ)) * ha
  refine ⟨a, θ, ha, h2, h3, hc, hA, hN, h4, exp_of_axis_angle a _ ha ?_ ?_ ?_⟩
  · rw [Real.cos_sub_two_pi, hc]
  · rw [Real.sin_sub_two_pi, hA]
  · rw [hc]; exact hN

/-! ## rounding errors of the parts of the matrix -/

theorem rnd_abs (x : ℝ) : |ρ.rnd x - x| ≤ ρ.u * |x| := ρ.err x

section parts
variable {m : Mat (Fl ρ)} {R : M 3} {δ : ℝ} (hm : ∀ i j : Fin 3, |(m i j).val - R i j| ≤ δ) (hE : δ + 4 * ρ.u ≤ 1 / 2500)
  (hR : IsRot R)
include hm hE hR

theorem parts_nonneg : 0 ≤ δ ∧ 0 ≤ ρ.u ∧ ρ.u ≤ 1 / 10000 := by
  have h1 := (abs_nonneg _).trans (hm 0 0)
  have h0 := ρ.u_nonneg
  exact ⟨h1, h0, by linarith⟩

theorem rot_entry (i j : Fin 3) : |R i j| ≤ 1 := by
  have := congrFun (congrFun hR.orth i) i
  rw [Matrix.mul_apply, Matrix.one_apply_eq] at this
  simp only [Matrix.transpose_apply] at this
  rw [← sq_le_one_iff_abs_le_one, sq, ← this]
  exact Finset.single_le_sum (f := fun j => R i j * R i j) (fun j _ => mul_self_nonneg _) (mem_univ j)

theorem half_diff (i j k l : Fin 3) : |((m i j - m k l) / lit 2).val - (R i j - R k l) / 2| ≤ δ + 4 * ρ.u ∧
    |((m i j + m k l) / lit 2).val - (R i j + R k l) / 2| ≤ δ + 4 * ρ.u := by
  obtain ⟨hδ, h0, hu⟩ := parts_nonneg hm hE hR
  have h1 := ρ.u_lt_one
  have a := abs_le.1 (hm i j)
  have b := abs_le.1 (hm k l)
  have ra := abs_le.1 (rot_entry hm hE hR i j)
  have rb := abs_le.1 (rot_entry hm hE hR k l)
  have gen : ∀ (x X : ℝ) (y : Fl ρ), y.val = ρ.rnd x → |x / 2 - X / 2| ≤ δ → |x / 2| ≤ 1 + δ →
      |(y / lit 2).val - X / 2| ≤ δ + 4 * ρ.u := by
    intro x X y hy hx hb
    obtain ⟨f1, q1, e1⟩ := rnd_fac ρ x
    obtain ⟨f2, q2, e2⟩ := of_fac (ρ := ρ) 2
    obtain ⟨f3, q3, e3⟩ := Fl.div_fac y (lit 2)
    have q := ((q1.div h0 h1 q2).mul h0 h1 q3)
    have hf := fac_near h0 hu q (by norm_num)
    have p2 := q2.pos h0 h1
    have e : (y / lit 2).val = x / 2 * (f1 / f2 * f3) := by
      rw [e3, hy, e1, e2]; field_simp
    rw [e]
    have : x / 2 * (f1 / f2 * f3) - X / 2 = (x / 2 - X / 2) + x / 2 * (f1 / f2 * f3 - 1) := by ring
    rw [this]
    refine (abs_add_le _ _).trans ?_
    rw [abs_mul]
    have := mul_le_mul hb hf (abs_nonneg _) (by linarith)
    push_cast at this
    norm_num at this
    nlinarith
  refine ⟨gen _ _ _ rfl ?_ ?_, gen _ _ _ rfl ?_ ?_⟩ <;> rw [abs_le] <;> constructor <;> linarith

theorem anti_err (r : Vec (Fl ρ)) : eucl (asV 3 (rvec (antiFl m r)) - antiV R) ≤ 1.74 * (δ + 4 * ρ.u) := by
  obtain ⟨hδ, h0, hu⟩ := parts_nonneg hm hE hR
  apply eucl_le_sq (by positivity)
  have h2 := (half_diff hm hE hR 2 1 1 2).1
  have h3 := (half_diff hm hE hR 0 2 2 0).1
  have h4 := (half_diff hm hE hR 1 0 0 1).1
  have g2 := pow_le_pow_left₀ (abs_nonneg _) h2 2
  have g3 := pow_le_pow_left₀ (abs_nonneg _) h3 2
  have g4 := pow_le_pow_left₀ (abs_nonneg _) h4 2
  rw [sq_abs] at g2 g3 g4
  rw [Fin.sum_univ_three]
  have e0 : (asV 3 (rvec (antiFl m r)) - antiV R) 0 = ((m 2 1 - m 1 2) / lit 2).val - (R 2 1 - R 1 2) / 2 := rfl
  have e1 : (asV 3 (rvec (antiFl m r)) - antiV R) 1 = ((m 0 2 - m 2 0) / lit 2).val - (R 0 2 - R 2 0) / 2 := rfl
  have e2 : (asV 3 (rvec (antiFl m r)) - antiV R) 2 = ((m 1 0 - m 0 1) / lit 2).val - (R 1 0 - R 0 1) / 2 := rfl
  rw [e0, e1, e2]
  have := sq_nonneg (δ + 4 * ρ.u)
  rw [mul_pow]
  norm_num at g2 g3 g4 ⊢
  linarith

theorem cos_err {c : ℝ} (hc : cosA R = c) (hc1 : |c| ≤ 1) :
    |((m 0 0 + m 1 1 + m 2 2 - 1) * lit 0.5).val - c| ≤ 1.5 * (δ + 4 * ρ.u) := by
  obtain ⟨hδ, h0, hu⟩ := parts_nonneg hm hE hR
  have a := abs_le.1 (hm 0 0)
  have b := abs_le.1 (hm 1 1)
  have d := abs_le.1 (hm 2 2)
  have ra := abs_le.1 (rot_entry hm hE hR 0 0)
  have rb := abs_le.1 (rot_entry hm hE hR 1 1)
  have rd := abs_le.1 (rot_entry hm hE hR 2 2)
  change _ ≤ (m 0 0).val - _ ∧ (m 0 0).val - _ ≤ _ at a
  change _ ≤ (m 1 1).val - _ ∧ (m 1 1).val - _ ≤ _ at b
  change _ ≤ (m 2 2).val - _ ∧ (m 2 2).val - _ ≤ _ at d
  unfold cosA at hc
  have hc' := abs_le.1 hc1
  have step : ∀ x M : ℝ, |x| ≤ M → |ρ.rnd x - x| ≤ ρ.u * M := fun x M h => (ρ.err x).trans (mul_le_mul_of_nonneg_left h h0)
  have s1 := abs_le.1 (step ((m 0 0).val + (m 1 1).val) 2.001 (by rw [abs_le]; constructor <;> norm_num <;> linarith))
  rw [← Fl.val_add] at s1
  have s2 := abs_le.1 (step ((m 0 0 + m 1 1).val + (m 2 2).val) 3.002 (by rw [abs_le]; constructor <;> norm_num <;> norm_num at s1 <;> linarith))
  rw [← Fl.val_add] at s2
  have s3 := abs_le.1 (step ((m 0 0 + m 1 1 + m 2 2).val - (1 : Fl ρ).val) 2.002 (by
    rw [Fl.val_one, abs_le]; constructor <;> norm_num <;> norm_num at s1 s2 <;> linarith))
  rw [← Fl.val_sub, Fl.val_one] at s3
  generalize hx : (m 0 0 + m 1 1 + m 2 2 - 1 : Fl ρ) = x at *
  obtain ⟨f2, q2, e2⟩ := of_fac (ρ := ρ) 0.5
  obtain ⟨f3, q3, e3⟩ := Fl.mul_fac x (lit 0.5)
  have hf := fac_near h0 hu (q2.mul h0 ρ.u_lt_one q3) (by norm_num)
  rw [e3, e2, show x.val * (0.5 * f2) * f3 = x.val * 0.5 + x.val * 0.5 * (f2 * f3 - 1) by ring]
  have hxa : |x.val * 0.5| ≤ 1.002 := by
    rw [abs_le]; norm_num at s1 s2 s3 ⊢; constructor <;> linarith
  have h5 := mul_le_mul hxa hf (abs_nonneg _) (by norm_num)
  rw [← abs_mul] at h5
  generalize x.val * 0.5 * (f2 * f3 - 1) = z at *
  rw [abs_le] at h5 ⊢
  push_cast at h5
  norm_num at s1 s2 s3 h5 ⊢
  constructor <;> linarith

/-- the column chosen in the third branch -/
theorem column_err {c : ℝ} (hc : cosA R = c) (hc1 : |c| ≤ 1) (hc2 : c ≤ -0.7) (hN : ∀ i, 0 ≤ symN R i i) (r2 : Vec (Fl ρ)) :
    ∃ k : Fin 3, 0.56 ≤ symN R k k ∧
      eucl (asV 3 (rvec (lnColumnFl m ((m 0 0 + m 1 1 + m 2 2 - 1) * lit 0.5) r2)) - fun i => symN R i k) ≤ 4.34 * (δ + 4 * ρ.u) := by
  obtain ⟨hδ, h0, hu⟩ := parts_nonneg hm hE hR
  have hce := cos_err hm hE hR hc hc1
  generalize (m 0 0 + m 1 1 + m 2 2 - 1) * lit 0.5 = C at *
  have hc' := abs_le.1 hc1
  set E := δ + 4 * ρ.u with hEd
  have hE0 : 0 ≤ E := by positivity
  have dg : ∀ i : Fin 3, |(m i i - C).val - symN R i i| ≤ 2.5 * E := by
    intro i
    have a := abs_le.1 (hm i i)
    have ra := abs_le.1 (rot_entry hm hE hR i i)
    have s : symN R i i = R i i - c := by simp [symN, hc]
    rw [s]
    have hce' := abs_le.1 hce
    have := (ρ.err ((m i i).val - C.val)).trans (mul_le_mul_of_nonneg_left (show |(m i i).val - C.val| ≤ 2.004 by
      rw [abs_le]; norm_num at hce' ⊢; constructor <;> linarith) h0)
    rw [← Fl.val_sub, abs_le] at this
    rw [abs_le]
    norm_num at hce' this ⊢
    constructor <;> linarith
  have tr := symN_trace R
  rw [hc] at tr
  -- a column whose diagonal element has the largest rounded square
  have pick : ∀ k : Fin 3, (∀ i : Fin 3, ((m i i - C) * (m i i - C)).val ≤ ((m k k - C) * (m k k - C)).val) → 0.56 ≤ symN R k k := by
    intro k hk
    obtain ⟨i, hi⟩ : ∃ i : Fin 3, 0.566 ≤ symN R i i := by
      by_contra hcon
      push Not at hcon
      have c0 := hcon 0; have c1 := hcon 1; have c2 := hcon 2
      norm_num at c0 c1 c2 hc2; linarith
    have hik := hk i
    have di := abs_le.1 (dg i)
    have dk := abs_le.1 (dg k)
    have nk := hN k
    obtain ⟨f1, q1, e1⟩ := Fl.mul_fac (m i i - C) (m i i - C)
    obtain ⟨f2, q2, e2⟩ := Fl.mul_fac (m k k - C) (m k k - C)
    have g1 := abs_le.1 (fac_near h0 hu q1 (by norm_num))
    have g2 := abs_le.1 (fac_near h0 hu q2 (by norm_num))
    rw [e1, e2] at hik
    generalize (m i i - C).val = x at *
    generalize (m k k - C).val = y at *
    push_cast at g1 g2
    norm_num at di dk hi g1 g2 ⊢
    have hx : 0.564 ≤ x := by norm_num; linarith
    have hy : -0.001 ≤ y := by norm_num; linarith
    have hxx : 0.564 * 0.564 ≤ x * x := mul_le_mul hx hx (by norm_num) (by linarith)
    have h3 : 0.564 * 0.564 * 0.9998 ≤ y * y * f2 := by
      refine le_trans ?_ hik
      exact mul_le_mul hxx (by norm_num; linarith) (by norm_num) (mul_self_nonneg _)
    have h4 : y * y * f2 ≤ y * y * 1.0002 := mul_le_mul_of_nonneg_left (by norm_num; linarith) (mul_self_nonneg _)
    have h5 : 0.5635 ≤ y := by
      by_contra hcon
      push Not at hcon
      have : y * y ≤ 0.5635 * 0.5635 := by
        norm_num at hcon hy ⊢
        nlinarith
      norm_num at h3 h4 this; linarith
    norm_num at h5
    linarith
  have col : ∀ (k : Fin 3) (v : Vec (Fl ρ)), (∀ i : Fin 3, |(v i).val - symN R i k| ≤ 2.5 * E) →
      eucl (asV 3 (rvec v) - fun i => symN R i k) ≤ 4.34 * E := by
    intro k v hv
    apply eucl_le_sq (by positivity)
    rw [Fin.sum_univ_three]
    have g : ∀ i, (asV 3 (rvec v) - fun i => symN R i k) i ^ 2 ≤ (2.5 * E) ^ 2 := by
      intro i
      rw [← sq_abs]; exact pow_le_pow_left₀ (abs_nonneg _) (hv i) 2
    have g0 := g 0; have g1 := g 1; have g2 := g 2
    have := sq_nonneg E
    rw [mul_pow] at *
    norm_num at g0 g1 g2 ⊢
    linarith
  have off : ∀ i j k l : Fin 3, ∀ X, (R i j + R k l) / 2 = X → |((m i j + m k l) / lit 2).val - X| ≤ 2.5 * E := by
    intro i j k l X hX
    rw [← hX]
    refine ((half_diff hm hE hR i j k l).2).trans ?_
    norm_num; linarith
  unfold lnColumnFl
  dsimp only
  by_cases c1 : (m 0 0 - C) * (m 0 0 - C) > (m 1 1 - C) * (m 1 1 - C) ∧ (m 0 0 - C) * (m 0 0 - C) > (m 2 2 - C) * (m 2 2 - C)
  · rw [if_pos c1]
    refine ⟨0, pick 0 fun i => ?_, col 0 _ fun i => ?_⟩
    · fin_cases i
      · exact le_rfl
      · exact le_of_lt c1.1
      · exact le_of_lt c1.2
    · fin_cases i
      · exact dg 0
      · exact off 1 0 0 1 _ (by simp [symN])
      · exact off 0 2 2 0 _ (by simp [symN, add_comm])
  · rw [if_neg c1]
    by_cases c2 : (m 1 1 - C) * (m 1 1 - C) > (m 2 2 - C) * (m 2 2 - C)
    · rw [if_pos c2]
      refine ⟨1, pick 1 fun i => ?_, col 1 _ fun i => ?_⟩
      · have c1' : ((m 0 0 - C) * (m 0 0 - C)).val > ((m 1 1 - C) * (m 1 1 - C)).val →
            ¬ ((m 0 0 - C) * (m 0 0 - C)).val > ((m 2 2 - C) * (m 2 2 - C)).val := fun h h' => c1 ⟨h, h'⟩
        have c2' : ((m 1 1 - C) * (m 1 1 - C)).val > ((m 2 2 - C) * (m 2 2 - C)).val := c2
        fin_cases i
        · by_contra h
          have h : ((m 0 0 - C) * (m 0 0 - C)).val > ((m 1 1 - C) * (m 1 1 - C)).val := not_le.1 h
          exact c1' h (h.trans' c2')
        · exact le_rfl
        · exact c2'.le
      · fin_cases i
        · exact off 1 0 0 1 _ (by simp [symN, add_comm])
        · exact dg 1
        · exact off 2 1 1 2 _ (by simp [symN])
    · rw [if_neg c2]
      refine ⟨2, pick 2 fun i => ?_, col 2 _ fun i => ?_⟩
      · have c1' : ((m 0 0 - C) * (m 0 0 - C)).val > ((m 1 1 - C) * (m 1 1 - C)).val →
            ¬ ((m 0 0 - C) * (m 0 0 - C)).val > ((m 2 2 - C) * (m 2 2 - C)).val := fun h h' => c1 ⟨h, h'⟩
        have c2' : ¬ ((m 1 1 - C) * (m 1 1 - C)).val > ((m 2 2 - C) * (m 2 2 - C)).val := c2
        fin_cases i
        · by_contra h
          have h : ((m 0 0 - C) * (m 0 0 - C)).val > ((m 2 2 - C) * (m 2 2 - C)).val := not_le.1 h
          exact c1' (lt_of_le_of_lt (not_lt.1 c2') h) h
        · exact not_lt.1 c2'
        · exact le_rfl
      · fin_cases i
        · exact off 0 2 2 0 _ (by simp [symN])
        · exact off 2 1 1 2 _ (by simp [symN, add_comm])
        · exact dg 2

end parts

end TooN.FlRot
