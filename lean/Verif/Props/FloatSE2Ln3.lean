import Verif.Props.FloatSE2Ln2
/-!
# C94, continued: `ln(exp(θ))`, exact arithmetic, a concrete case
-/
set_option linter.unusedSectionVars false
namespace TooN.FlRot
open Finset Lie Matrix
variable {ρ : Rounding}

theorem chord_angle {a b e : ℝ} (hd : |a - b| ≤ 6.26) (he : e ≤ 0.01) (h : frob (so2Exp a - so2Exp b) ≤ e) : |a - b| ≤ 1.12 * e := by
  have hp := Real.pi_gt_d4
  have hp' := Real.pi_lt_d4
  have f : frob (so2Exp a - so2Exp b) ^ 2 = 8 * Real.sin ((a - b) / 2) ^ 2 := by
    rw [frob, Real.sq_sqrt (by positivity)]
    have h1 := Real.cos_sq' ((a - b) / 2)
    have h2 := Real.cos_two_mul ((a - b) / 2)
    rw [show 2 * ((a - b) / 2) = a - b by ring, Real.cos_sub] at h2
    have e1 := Real.sin_sq_add_cos_sq a
    have e2 := Real.sin_sq_add_cos_sq b
    simp [Fin.sum_univ_two, so2Exp]
    nlinarith
  have f0 : 0 ≤ frob (so2Exp a - so2Exp b) := Real.sqrt_nonneg _
  have e0 : 0 ≤ e := f0.trans h
  have s1 : 2.828 * |Real.sin ((a - b) / 2)| ≤ e := by
    refine le_trans ?_ h
    refine abs_le_of_sq_le_sq' ?_ f0 |>.2
    rw [mul_pow, sq_abs, f]
    have := sq_nonneg (Real.sin ((a - b) / 2))
    norm_num; linarith
  have key : ∀ x : ℝ, 0 ≤ x → x ≤ 3.13 → 2.828 * |Real.sin x| ≤ e → 2 * x ≤ 1.12 * e := by
    intro x h0 h1 h2
    rw [abs_of_nonneg (Real.sin_nonneg_of_nonneg_of_le_pi h0 (by linarith))] at h2
    rcases le_total x (Real.pi / 2) with hx | hx
    · have := Real.mul_le_sin h0 hx
      have hq : 0.6366 ≤ 2 / Real.pi := by rw [le_div_iff₀ (by linarith)]; linarith
      have := mul_le_mul_of_nonneg_right hq h0
      linarith
    · have := Real.mul_le_sin (x := Real.pi - x) (by linarith) (by linarith)
      rw [Real.sin_pi_sub] at this
      have hq : 0.6366 ≤ 2 / Real.pi := by rw [le_div_iff₀ (by linarith)]; linarith
      have := mul_le_mul_of_nonneg_right hq (by linarith : 0 ≤ Real.pi - x)
      linarith
  rcases le_total 0 (a - b) with hs | hs
  · rw [abs_of_nonneg hs] at hd ⊢
    have := key ((a - b) / 2) (by linarith) (by linarith) s1
    linarith
  · rw [abs_of_nonpos hs] at hd ⊢
    have := key (-(a - b) / 2) (by linarith) (by linarith) (by rw [neg_div, Real.sin_neg, abs_neg]; exact s1)
    linarith

/-- **C94** `SO2::ln(SO2::exp(θ))` for `|θ| ≤ 3.1`: the angle is `θ` up to `4.5η + 5η'` -/
theorem c94_so2_round_trip (L : Libm ρ) {η : ℝ} (hη1 : η ≤ 1 / 1000) (hs : ∀ x, |(L.sin x).val - Real.sin x.val| ≤ η)
    (hc : ∀ x, |(L.cos x).val - Real.cos x.val| ≤ η) (A : Fl ρ → Fl ρ → Fl ρ) {η' : ℝ} (hη' : 0 ≤ η') (hη1' : η' ≤ 1 / 1000)
    (hA : AtanAcc A η') (th : Fl ρ) (hth : |th.val| ≤ 3.1) (H : Mat (Fl ρ)) :
    |(so2LnFl A (so2ExpFl L th H)).val - th.val| ≤ 4.5 * η + 5 * η' := by
  have hη : 0 ≤ η := (abs_nonneg _).trans (hs th)
  obtain ⟨h1, h2⟩ := c94_so2_ln A hη' hA (so2ExpFl L th H) (so2Exp_rot th.val) (by linarith) (fun i j => (c70_exp2 L η hs hc th H).1 i j)
  generalize (so2LnFl A (so2ExpFl L th H)).val = a at *
  generalize th.val = b at *
  have hp := Real.pi_lt_d4
  have h3 : |a| ≤ 3.15 := by
    have := mul_le_mul hp.le (by linarith : 1 + η' ≤ 1.001) (by positivity) (by norm_num)
    norm_num at this ⊢; linarith
  have h4 := abs_sub a b
  have := chord_angle (e := 4.01 * η + 4.45 * η') (by linarith) (by linarith) h1
  linarith

/-- the arc tangent rounded correctly -/
noncomputable def atanRounded (ρ : Rounding) : Fl ρ → Fl ρ → Fl ρ := fun y x => Fl.of ρ (Complex.arg ⟨x.val, y.val⟩)

theorem atanRounded_acc (ρ : Rounding) : AtanAcc (atanRounded ρ) ρ.u := fun _ _ => ρ.err _

/-- **C94** in exact arithmetic these models are those of `Model/SO.lean` and `Model/SE.lean` -/
theorem c94_exact_so2 (m : Mat (Fl Rounding.exact)) : (so2LnFl (atanRounded Rounding.exact) m).val = so2Ln (asM 2 2 (rmat m)) := rfl

theorem c94_exact_se2 (T : Pose Rounding.exact) (H : Mat (Fl Rounding.exact)) (w : Vec (Fl Rounding.exact)) :
    (se2LnFl (Libm.rounded Rounding.exact) (atanRounded Rounding.exact) T H w).map (fun v => asV 3 (rvec v)) =
      se2Ln ⟨asM 2 2 (rmat T.R), asV 2 (rvec T.t)⟩ := by
  unfold se2LnFl se2Ln
  dsimp only
  have et := c94_exact_so2 T.R
  rw [← et]
  generalize so2LnFl (atanRounded Rounding.exact) T.R = th
  have es : (lnSh2Fl (Libm.rounded Rounding.exact) th).val = if |th.val| > 0.00001 then Real.sin (th.val / 2) / th.val else 0.5 := by
    unfold lnSh2Fl
    have : |th.val| > (lit (ρ := Rounding.exact) 0.00001).val ↔ |th.val| > 0.00001 := Iff.rfl
    split_ifs <;> first | rfl | tauto
  rw [← es]
  have eH : asM 2 2 (rmat (so2ExpFl (Libm.rounded Rounding.exact) (th * lit (-0.5)) H)) = so2Exp (th.val * -0.5) := by
    have h := rot2_frob (Libm.rounded Rounding.exact) le_rfl (fun x => (Libm.rounded_err x).1) (fun x => (Libm.rounded_err x).2)
      (th * lit (-0.5)) H
    ext i j
    have h2 := (c70_exp2 (Libm.rounded Rounding.exact) 0 (fun x => (Libm.rounded_err x).1) (fun x => (Libm.rounded_err x).2)
      (th * lit (-0.5)) H).1 i j
    exact sub_eq_zero.1 (abs_nonpos_iff.1 h2)
  have er := act_exact (n := 2) (so2ExpFl (Libm.rounded Rounding.exact) (th * lit (-0.5)) H) T.t w
  rw [eH] at er
  rw [← er]
  generalize soAct 2 (so2ExpFl (Libm.rounded Rounding.exact) (th * lit (-0.5)) H) T.t w = r
  generalize lnSh2Fl (Libm.rounded Rounding.exact) th = sh
  have z : lit 2 * sh = 0 ↔ 2 * sh.val = 0 := ⟨fun h => congrArg Fl.val h, fun h => Fl.ext h⟩
  by_cases h : 2 * sh.val = 0
  · rw [if_pos (z.2 h), if_pos h]; rfl
  · rw [if_neg (fun q => h (z.1 q)), if_neg h, Option.map_some]
    congr 1
    funext i; fin_cases i <;> rfl

/-- the quarter turn of the plane -/
noncomputable def quarter2 : M 2 := !![0, -1; 1, 0]

theorem quarter2_rot : IsRot quarter2 := by
  constructor
  · ext i j; fin_cases i <;> fin_cases j <;> simp [quarter2, Matrix.mul_apply, Fin.sum_univ_two]
  · simp [quarter2, det_fin_two]

/-- a stored pose that is not the identity meets the hypotheses of `c94_se2_ln` in double precision, with a library that rounds correctly -/
example (T : Pose Rounding.double) (hR : T.R = fun r c => if r = 0 ∧ c = 1 then -1 else if r = 1 ∧ c = 0 then 1 else 0)
    (H : Mat (Fl Rounding.double)) (w : Vec (Fl Rounding.double)) :
    ∃ v, se2LnFl (Libm.rounded Rounding.double) (atanRounded Rounding.double) T H w = some v ∧
      frob (Matrix.of (fun i j : Fin 2 => (NormedSpace.exp (∑ k, asV 3 (rvec v) k • se2Gen k) : M 3) i.castSucc j.castSucc) - quarter2) ≤
        4.01 * 0 + 4.45 * Rounding.double.u := by
  have hu : Rounding.double.u = 1 / 2 ^ 53 := Rounding.double_u
  obtain ⟨v, h1, h2, -⟩ := c94_se2_ln (ρ := Rounding.double) (by rw [hu]; norm_num) (Libm.rounded Rounding.double)
    (Rounding.double.u_nonneg) (by rw [hu]; norm_num) (fun x => Rounding.double.err (Real.sin x.val)) (fun x => (Libm.rounded_err x).2)
    (atanRounded Rounding.double) Rounding.double.u_nonneg (by rw [hu]; norm_num) (atanRounded_acc _) T quarter2_rot (δ := 0) (by norm_num)
    (fun i j => by
      have : (T.R i j).val = quarter2 i j := by
        rw [hR]; fin_cases i <;> fin_cases j <;> simp [quarter2]
      rw [this, sub_self, abs_zero]) H w
  exact ⟨v, h1, h2⟩

end TooN.FlRot
