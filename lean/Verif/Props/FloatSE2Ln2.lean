import Verif.Props.FloatSE2Ln
/-!
# C94, continued: `SE2::ln`
-/
set_option linter.unusedSectionVars false
namespace TooN.FlRot
open Finset Lie Matrix
variable {ρ : Rounding}

theorem shR_abs (θ : ℝ) : shR |θ| = shR θ := by
  rcases le_total 0 θ with h | h
  · rw [abs_of_nonneg h]
  · rw [abs_of_nonpos h]
    unfold shR
    by_cases h0 : θ = 0
    · rw [h0, neg_zero]
    · rw [if_neg (neg_ne_zero.2 h0), if_neg h0, neg_div, Real.sin_neg, neg_div_neg_eq]

/-- `shtot` -/
theorem sh_err2 (hu : ρ.u ≤ 1 / 100000) (L : Libm ρ) {η : ℝ} (hη : 0 ≤ η) (hη1 : η ≤ 1 / 10000)
    (hs : ∀ x, |(L.sin x).val - Real.sin x.val| ≤ η * |Real.sin x.val|) {th : Fl ρ} (h1 : |th.val| ≤ 3.3) :
    |(lnSh2Fl L th).val - shR th.val| ≤ 0.502 * η + 5.9 * ρ.u + shTail |th.val| := by
  have u0 := ρ.u_nonneg
  have u1 := ρ.u_lt_one
  have hu' : ρ.u ≤ 1 / 10000 := by linarith
  have T0 := (shTail_bounds (abs_nonneg th.val)).1
  obtain ⟨f5, hf5, e5⟩ := of_fac (ρ := ρ) 0.00001
  have f51 := abs_le.1 (fac_near u0 hu' hf5 (by norm_num))
  norm_num at f51
  have hb := shR_bounds (abs_nonneg th.val) h1
  have ht := shR_small (abs_nonneg th.val)
  rw [shR_abs] at hb ht
  unfold lnSh2Fl
  split_ifs with hc
  · rw [e5] at hc
    have hp : 0 < |th.val| := by norm_num at hc ⊢; intro h; rw [h] at hc; norm_num at hc; linarith
    have hne : th.val ≠ 0 := abs_pos.1 hp
    obtain ⟨f2, hf2, e2⟩ := of_fac (ρ := ρ) 2
    obtain ⟨d, hd, ed⟩ := Fl.div_fac th (lit 2)
    obtain ⟨d', hd', ed'⟩ := Fl.div_fac (L.sin (th / lit 2)) th
    have hx : (th / lit 2).val = th.val / 2 * (d / f2) := by rw [ed, e2]; have := (hf2.pos u0 u1).ne'; field_simp
    have hsx := hs (th / lit 2)
    rw [hx] at hsx
    have hk1 := fac_near u0 hu' (hd.div u0 u1 hf2) (by norm_num)
    have hF1 := fac_near u0 hu' hd' (by norm_num)
    have es' : Real.sin (th.val / 2) = th.val * shR th.val := by unfold shR; rw [if_neg hne]; field_simp
    rw [ed']
    generalize (L.sin (th / lit 2)).val = S' at *
    generalize th.val = θ at *
    have hsin : |Real.sin (θ / 2 * (d / f2)) - Real.sin (θ / 2)| ≤ |θ| * (1.01 * ρ.u) := by
      refine (Real.abs_sin_sub_sin_le _ _).trans ?_
      rw [show θ / 2 * (d / f2) - θ / 2 = θ * ((d / f2 - 1) / 2) by ring, abs_mul]
      refine mul_le_mul_of_nonneg_left ?_ (abs_nonneg _)
      rw [abs_div, abs_two]
      norm_num at hk1 ⊢; linarith
    rw [es'] at hsin
    generalize Real.sin (θ / 2 * (d / f2)) = S at *
    generalize shR θ = s at *
    have q1 : |θ * s| ≤ |θ| * (1 / 2) := by
      rw [abs_mul, abs_of_nonneg (by linarith [hb.1] : 0 ≤ s)]; exact mul_le_mul_of_nonneg_left hb.2 (abs_nonneg _)
    have tu : |θ| * ρ.u ≤ |θ| * (1 / 100000) := mul_le_mul_of_nonneg_left hu (abs_nonneg _)
    have a1 : |S| ≤ |θ| * 0.5001 := by
      have : |S| ≤ |S - θ * s| + |θ * s| := by have := abs_add_le (S - θ * s) (θ * s); rwa [sub_add_cancel] at this
      linarith
    have a2 : |S' - θ * s| ≤ |θ| * (0.5001 * η + 1.01 * ρ.u) := by
      have e : S' - θ * s = (S' - S) + (S - θ * s) := by ring
      rw [e]
      refine (abs_add_le _ _).trans ?_
      have := mul_le_mul_of_nonneg_left a1 hη
      linarith
    have a3 : |S' / θ - s| ≤ 0.5001 * η + 1.01 * ρ.u := by
      rw [show S' / θ - s = (S' - θ * s) / θ by field_simp, abs_div, div_le_iff₀ hp]; linarith
    generalize S' / θ = z at *
    have hz : |z| ≤ 0.5002 := by
      have := abs_le.1 a3
      rw [abs_le]; norm_num at this ⊢; constructor <;> linarith [this.1, this.2, hb.1, hb.2]
    have a4 : |z * d' - s| ≤ |z| * |d' - 1| + |z - s| := by
      rw [show z * d' - s = z * (d' - 1) + (z - s) by ring, ← abs_mul]; exact abs_add_le _ _
    have a5 : |z| * |d' - 1| ≤ 0.5002 * (1 * (1.003 * ρ.u)) :=
      mul_le_mul hz (hF1.trans (by norm_num)) (abs_nonneg _) (by norm_num)
    refine a4.trans ?_
    linarith
  · rw [e5] at hc
    have hθ : |th.val| ≤ 1.1e-5 := by norm_num at hc ⊢; linarith [f51.2]
    obtain ⟨f, hf, ef⟩ := of_fac (ρ := ρ) 0.5
    have hf1 := abs_le.1 (fac_near u0 hu' hf (by norm_num))
    have ht := ht (by norm_num at hθ ⊢; linarith)
    have et : shTail |th.val| = |th.val| ^ 2 / 48 := by unfold shTail; rw [if_pos hθ]
    rw [et, ef, abs_le]
    norm_num at hf1 hb ht ⊢
    constructor <;> linarith [hf1.1, hf1.2, hb.1, hb.2, sq_nonneg th.val]

theorem so2Exp_rot (θ : ℝ) : IsRot (so2Exp θ) := by
  have h := Real.sin_sq_add_cos_sq θ
  constructor
  · ext i j; fin_cases i <;> fin_cases j <;> simp [so2Exp, Matrix.mul_apply, Fin.sum_univ_two] <;> nlinarith
  · simp [so2Exp, det_fin_two]; nlinarith

theorem so2Exp_lip (a b : ℝ) : frob (so2Exp a - so2Exp b) ≤ 1.41422 * |a - b| := by
  have h := frob_so2 a (so2Exp_rot b)
  refine h.trans (mul_le_mul_of_nonneg_left ?_ (by norm_num))
  have := circle_lip a b
  simpa [so2Exp] using this

theorem so2_half (θ : ℝ) (v : V 2) : (so2Exp (θ / 2)).mulVec ((so2Exp (-1 / 2 * θ)).mulVec v) = v := by
  rw [mulVec_mulVec]
  have e : so2Exp (θ / 2) * so2Exp (-1 / 2 * θ) = 1 := by
    have h := Real.sin_sq_add_cos_sq (θ / 2)
    rw [show -1 / 2 * θ = -(θ / 2) by ring]
    ext i j
    fin_cases i <;> fin_cases j <;> simp [so2Exp, Matrix.mul_apply, Fin.sum_univ_two] <;> nlinarith
  rw [e, one_mulVec]

theorem expTr2_lip (p q : V 2) {θ : ℝ} (h : |θ| ≤ 3.3) : eucl (expTr2 p θ - expTr2 q θ) ≤ eucl (p - q) := by
  rw [expTr2_eq, expTr2_eq, ← smul_sub, ← mulVec_sub, eucl_smul', eucl_orth (so2Exp_rot _).orth']
  have hb := shR_bounds (abs_nonneg θ) h
  rw [shR_abs] at hb
  rw [abs_of_nonneg (by linarith [hb.1])]
  have := mul_le_mul_of_nonneg_right (by linarith [hb.2] : 2 * shR θ ≤ 1) (eucl_nonneg (p - q))
  linarith


/-- the vector `SE2::ln` returns -/
def join2 (q : Vec (Fl ρ)) (th : Fl ρ) : Vec (Fl ρ) := fun i => if i < 2 then q i else th

theorem join2_v (q : Vec (Fl ρ)) (th : Fl ρ) :
    asV 3 (rvec (join2 q th)) = ![asV 2 (rvec q) 0, asV 2 (rvec q) 1, th.val] := by
  funext i; fin_cases i <;> rfl

theorem join2_2 (q : Vec (Fl ρ)) (th : Fl ρ) : asV 2 (rvec (join2 q th)) = asV 2 (rvec q) := by
  funext i; fin_cases i <;> rfl

theorem rot_of_exp (v : V 3) :
    Matrix.of (fun i j : Fin 2 => (NormedSpace.exp (∑ k, v k • se2Gen k) : M 3) i.castSucc j.castSucc) = so2Exp (v 2) := by
  ext i j
  exact (se2_exact v i j).1

theorem join2_rot (q : Vec (Fl ρ)) (th : Fl ρ) :
    Matrix.of (fun i j : Fin 2 => (NormedSpace.exp (∑ k, asV 3 (rvec (join2 q th)) k • se2Gen k) : M 3) i.castSucc j.castSucc) =
      so2Exp th.val := by
  rw [rot_of_exp, join2_v]; rfl

theorem join2_tr (q : Vec (Fl ρ)) (th : Fl ρ) :
    (fun i : Fin 2 => (NormedSpace.exp (∑ k, asV 3 (rvec (join2 q th)) k • se2Gen k) : M 3) i.castSucc (Fin.last 2)) =
      expTr2 (asV 2 (rvec q)) th.val := by
  rw [join2_v]; rfl

theorem half_sum {a b c d e u : ℝ} (h1 : a ≤ ((2 : ℕ) : ℝ) * d) (h2 : b ≤ 1.41422 * e) (h3 : 1.41422 * e ≤ 1.41422 * (3.4 * u))
    (h4 : c ≤ a + b) : c ≤ 2 * d + 5 * u ∨ u < 0 := by
  push_cast at h1
  by_cases h : u < 0
  · exact Or.inr h
  · exact Or.inl (by linarith)

theorem rot2_frob (L : Libm ρ) {η : ℝ} (hη : 0 ≤ η) (hs : ∀ x, |(L.sin x).val - Real.sin x.val| ≤ η)
    (hc : ∀ x, |(L.cos x).val - Real.cos x.val| ≤ η) (t : Fl ρ) (H : Mat (Fl ρ)) :
    frob (asM 2 2 (rmat (so2ExpFl L t H)) - so2Exp t.val) ≤ ((2 : ℕ) : ℝ) * η := by
  refine frob_le_of_entries _ η hη fun i j => ?_
  exact (c70_exp2 L η hs hc t H).1 i j

theorem half_arg (hu : ρ.u ≤ 1 / 10000) {th : Fl ρ} (h33 : |th.val| ≤ 3.3) : |(th * lit (-0.5)).val - -1 / 2 * th.val| ≤ 3.4 * ρ.u := by
  have u0 := ρ.u_nonneg
  have u1 := ρ.u_lt_one
  obtain ⟨f, hf, ef⟩ := of_fac (ρ := ρ) (-0.5)
  obtain ⟨d, hd, ed⟩ := Fl.mul_fac th (lit (-0.5))
  have hF := fac_near u0 hu (hf.mul u0 u1 hd) (by norm_num)
  rw [ed, ef, show th.val * (-0.5 * f) * d - -1 / 2 * th.val = -(th.val * ((f * d - 1) / 2)) by norm_num; ring, abs_neg, abs_mul, abs_div,
    abs_two]
  have := mul_le_mul h33 hF (abs_nonneg _) (by norm_num)
  norm_num at this ⊢; linarith

/-- the half rotation -/
theorem half_rot2 (hu : ρ.u ≤ 1 / 10000) (L : Libm ρ) {η : ℝ} (hη : 0 ≤ η) (hs : ∀ x, |(L.sin x).val - Real.sin x.val| ≤ η)
    (hc : ∀ x, |(L.cos x).val - Real.cos x.val| ≤ η) {th : Fl ρ} (h33 : |th.val| ≤ 3.3) (H : Mat (Fl ρ)) :
    frob (asM 2 2 (rmat (so2ExpFl L (th * lit (-0.5)) H)) - so2Exp (-1 / 2 * th.val)) ≤ 2 * η + 5 * ρ.u := by
  have u0 := ρ.u_nonneg
  have a := rot2_frob L hη hs hc (th * lit (-0.5)) H
  have k := half_arg hu h33
  have b := so2Exp_lip (th * lit (-0.5)).val (-1 / 2 * th.val)
  have := frob_add (asM 2 2 (rmat (so2ExpFl L (th * lit (-0.5)) H)) - so2Exp (th * lit (-0.5)).val)
    (so2Exp (th * lit (-0.5)).val - so2Exp (-1 / 2 * th.val))
  rw [sub_add_sub_cancel] at this
  have k' := mul_le_mul_of_nonneg_left k (by norm_num : (0:ℝ) ≤ 1.41422)
  exact (half_sum a b k' this).resolve_right (not_lt.2 u0)

/-- the division of the vector -/
theorem vdiv_err (hu : ρ.u ≤ 1 / 10000) (n : ℕ) (r : Vec (Fl ρ)) (d : Fl ρ) (hd : 0.59 ≤ d.val) :
    eucl (d.val • asV n (rvec fun i => r i / d) - asV n (rvec r)) ≤ 1.01 * ρ.u * eucl (asV n (rvec r)) := by
  have u0 := ρ.u_nonneg
  have dp : d.val ≠ 0 := (lt_of_lt_of_le (by norm_num) hd).ne'
  rw [← eucl_smul _ (by positivity)]
  refine eucl_mono fun i => ?_
  obtain ⟨c, hc, ec⟩ := Fl.div_fac (r i) d
  have h2 := fac_near u0 hu hc (by norm_num)
  change |d.val * (r i / d).val - (r i).val| ≤ |1.01 * ρ.u * (r i).val|
  rw [ec, show d.val * ((r i).val / d.val * c) - (r i).val = (c - 1) * (r i).val by field_simp, abs_mul, abs_mul (1.01 * ρ.u),
    abs_of_nonneg (by positivity : 0 ≤ 1.01 * ρ.u)]
  refine mul_le_mul_of_nonneg_right ?_ (abs_nonneg _)
  norm_num at h2 ⊢; linarith

/-- the translation that the quotient stands for -/
theorem tr2_err {u η : ℝ} (u0 : 0 ≤ u) (hu : u ≤ 1 / 100000) (hη : 0 ≤ η) (hη1 : η ≤ 1 / 10000) {θ d τ : ℝ} (h33 : |θ| ≤ 3.3) {t r q : V 2}
    (eτ : eucl t = τ) (dlo : 0.59 ≤ d) (e1 : abs (d - 2 * shR (abs θ)) ≤ shD u η (abs θ))
    (er : eucl (r - (so2Exp (-1 / 2 * θ)).mulVec t) ≤ (2 * η + 10.25 * u) * τ) (eq : eucl (d • q - r) ≤ 1.01 * u * eucl r) :
    eucl (expTr2 q θ - t) ≤ (8 * η + 80 * u + 9.6 * shTail |θ|) * τ ∧ eucl q ≤ 2.4 * τ := by
  have t0 : 0 ≤ τ := eτ ▸ eucl_nonneg t
  have h0 := abs_nonneg θ
  have hb := shR_bounds h0 h33
  have T0 := (shTail_bounds h0).1
  have eD : shD u η |θ| = 1.01 * η + 14 * u + 2.1 * shTail |θ| := rfl
  have rN : eucl ((so2Exp (-1 / 2 * θ)).mulVec t) = τ := (eucl_orth (so2Exp_rot _).orth' _).trans eτ
  have ex : expTr2 ((1 / (2 * shR |θ|)) • (so2Exp (-1 / 2 * θ)).mulVec t) θ = t := by
    rw [expTr2_eq, mulVec_smul, smul_smul, shR_abs, so2_half, mul_one_div_cancel, one_smul]
    rw [← shR_abs]; have := hb.1; norm_num at this; linarith
  have fin := expTr2_lip q ((1 / (2 * shR |θ|)) • (so2Exp (-1 / 2 * θ)).mulVec t) h33
  rw [ex] at fin
  generalize (so2Exp (-1 / 2 * θ)).mulVec t = Et at *
  have hsT := (shTail_bounds h0).2
  generalize shTail |θ| = sT at *
  generalize shR |θ| = s at *
  have uT : 0 ≤ u * τ := mul_nonneg u0 t0
  have uT' : u * τ ≤ 1 / 100000 * τ := mul_le_mul_of_nonneg_right hu t0
  have ηT : 0 ≤ η * τ := mul_nonneg hη t0
  have ηT' : η * τ ≤ 1 / 10000 * τ := mul_le_mul_of_nonneg_right hη1 t0
  have hr : eucl r ≤ 1.01 * τ := by
    have := eucl_le_of _ _ er
    rw [rN] at this
    linarith
  have hz : eucl (d • q - Et) ≤ (2 * η + 11.3 * u) * τ := by
    have q := eucl_add (d • q - r) (r - Et)
    rw [sub_add_sub_cancel] at q
    have := mul_le_mul_of_nonneg_left hr u0
    linarith
  have l6 : 0.6 ≤ 2 * s := by norm_num at hb ⊢; linarith [hb.1]
  have dv := div_err dlo l6 e1 (by rw [rN]; linarith) hz t0
  have dv' : eucl (q - (1 / (2 * s)) • Et) ≤ (8 * η + 80 * u + 9.6 * sT) * τ := by
    refine dv.trans (mul_le_mul_of_nonneg_right ?_ t0)
    rw [eD]
    have : (2 * η + 11.3 * u) / 0.59 = (2 * η + 11.3 * u) * (100 / 59) := by norm_num; ring
    rw [this]
    norm_num; linarith
  refine ⟨fin.trans dv', (eucl_le_of _ _ dv').trans ?_⟩
  rw [eucl_smul', rN, abs_of_pos (one_div_pos.2 (lt_of_lt_of_le (by norm_num) l6))]
  have m1 := mul_le_mul_of_nonneg_right (one_div_le_one_div_of_le (by norm_num) l6) t0
  have c : 8 * η + 80 * u + 9.6 * sT ≤ 0.01 := by
    norm_num at hsT ⊢; linarith
  have := mul_le_mul_of_nonneg_right c t0
  norm_num at this m1 ⊢; linarith

/-- **C94** `SE2::ln` of a stored pose whose matrix is within `δ` of a rotation `Q`: it does not divide by zero; the exponential of the
resulting twist `(p, θ)` has the rotation by `θ`, within `4.01δ + 4.45η'` of `Q`, and the stored translation up to `8η + 80u` of its length
(plus a fifth of the square of the angle for angles up to `1.1·10⁻⁵`) -/
theorem c94_se2_ln (hu : ρ.u ≤ 1 / 100000) (L : Libm ρ) {η : ℝ} (hη : 0 ≤ η) (hη1 : η ≤ 1 / 10000)
    (hs : ∀ x, |(L.sin x).val - Real.sin x.val| ≤ η * |Real.sin x.val|) (hc : ∀ x, |(L.cos x).val - Real.cos x.val| ≤ η)
    (A : Fl ρ → Fl ρ → Fl ρ) {η' : ℝ} (hη' : 0 ≤ η') (hη1' : η' ≤ 1 / 100) (hA : AtanAcc A η') (T : Pose ρ) {Q : M 2} (hQ : IsRot Q)
    {δ : ℝ} (hδ : δ ≤ 1 / 2) (hm : ∀ i j : Fin 2, |(T.R i j).val - Q i j| ≤ δ) (H : Mat (Fl ρ)) (w : Vec (Fl ρ)) :
    ∃ v : Vec (Fl ρ), se2LnFl L A T H w = some v ∧
      frob (Matrix.of (fun i j : Fin 2 => (NormedSpace.exp (∑ k, asV 3 (rvec v) k • se2Gen k) : M 3) i.castSucc j.castSucc) - Q) ≤
        4.01 * δ + 4.45 * η' ∧
      eucl ((fun i : Fin 2 => (NormedSpace.exp (∑ k, asV 3 (rvec v) k • se2Gen k) : M 3) i.castSucc (Fin.last 2)) - asV 2 (rvec T.t)) ≤
        (8 * η + 80 * ρ.u + (if |(v 2).val| ≤ 1.1e-5 then (v 2).val ^ 2 / 5 else 0)) * eucl (asV 2 (rvec T.t)) ∧
      |(v 2).val| ≤ 3.2 ∧ eucl (asV 2 (rvec v)) ≤ 2.4 * eucl (asV 2 (rvec T.t)) := by
  have u0 := ρ.u_nonneg
  have u1 := ρ.u_lt_one
  have hu' : ρ.u ≤ 1 / 10000 := by linarith
  obtain ⟨hR, hθ⟩ := c94_so2_ln A hη' hA T.R hQ hδ hm
  unfold se2LnFl
  dsimp only
  generalize so2LnFl A T.R = th at *
  have h32 : |th.val| ≤ 3.2 := by
    have hp := Real.pi_lt_d4
    have := mul_le_mul hp.le (by linarith : 1 + η' ≤ 1.01) (by positivity) (by norm_num)
    norm_num at this hθ ⊢; linarith
  have h33 : |th.val| ≤ 3.3 := h32.trans (by norm_num)
  have h0 := abs_nonneg th.val
  obtain ⟨D0, D1⟩ := shD_le u0 hu hη hη1 h0
  have hb := shR_bounds h0 h33
  have se := sh_err2 hu L hη hη1 hs h33
  rw [← shR_abs] at se
  have e1 := sh2_err hu hη hη1 h0 h33 se
  have dlo : 0.59 ≤ (lit 2 * lnSh2Fl L th).val := by
    have := (abs_le.1 e1).1
    norm_num at D1 hb ⊢; linarith [hb.1]
  have hne : ¬ lit 2 * lnSh2Fl L th = 0 := by
    intro h; rw [h, Fl.val_zero] at dlo; norm_num at dlo
  have e3 := half_rot2 hu' L hη (libm_abs hη hs) hc h33 H
  have e4 := act_near (n := 2) (by norm_num) hu' (so2ExpFl L (th * lit (-0.5)) H) (so2Exp_rot _) (by norm_num; linarith) e3 T.t w
  generalize so2ExpFl L (th * lit (-0.5)) H = Hm at *
  generalize soAct 2 Hm T.t w = r at *
  generalize lit 2 * lnSh2Fl L th = d at *
  rw [if_neg hne]
  have l := vdiv_err hu' 2 r d dlo
  have e4' : eucl (asV 2 (rvec r) - (so2Exp (-1 / 2 * th.val)).mulVec (asV 2 (rvec T.t))) ≤ (2 * η + 10.25 * ρ.u) * eucl (asV 2 (rvec T.t)) := by
    refine e4.trans (mul_le_mul_of_nonneg_right ?_ (eucl_nonneg _))
    linarith
  obtain ⟨A1, A2⟩ := tr2_err u0 hu hη hη1 h33 rfl dlo e1 e4' l
  have tail : (if |th.val| ≤ 1.1e-5 then th.val ^ 2 / 5 else 0) = 9.6 * shTail |th.val| := by
    unfold shTail; rw [sq_abs]; split_ifs <;> ring
  refine ⟨join2 (fun i => r i / d) th, rfl, ?_⟩
  have v2 : join2 (fun i => r i / d) th 2 = th := if_neg (by norm_num)
  rw [join2_rot, join2_tr, join2_2, v2, tail]
  exact ⟨hR, A1, h32, A2⟩

end TooN.FlRot
